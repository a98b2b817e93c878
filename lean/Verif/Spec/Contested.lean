import Verif.Spec.Symmetry
/-!
# Where the eye test depends on which way the board is turned
-/

namespace Spec
open Model (Color)

/-- Diagonally next to each other. -/
def Diagonal (p q : Pt) : Prop := (p.1 + 1 = q.1 ∨ q.1 + 1 = p.1) ∧ (p.2 + 1 = q.2 ∨ q.2 + 1 = p.2)

/-- An empty diagonal point of `p` with a stone of the opponent of `c` next to it. -/
def BrokenCorner (n : Dim) (pos : Pos) (c : Color) (p q : Pt) : Prop :=
  OnBoard n q ∧ Diagonal p q ∧ pos q = none ∧ ∃ r, Adj q r ∧ OnBoard n r ∧ pos r = some c.opp

/-- An empty diagonal point of `p` without opposing neighbour, of whose own diagonal points two or three are off the board or
show `c`. -/
def SoundCorner (n : Dim) (pos : Pos) (c : Color) (p q : Pt) : Prop :=
  OnBoard n q ∧ Diagonal p q ∧ pos q = none ∧ (∀ r, Adj q r → OnBoard n r → pos r ≠ some c.opp) ∧
    (safeCorners n pos c q = 2 ∨ safeCorners n pos c q = 3)

/-- `p` is empty and surrounded by `c`, has two or three diagonal points off the board or of colour `c`, and has both a broken and
a sound corner. -/
def Contested (n : Dim) (pos : Pos) (c : Color) (p : Pt) : Prop :=
  pos p = none ∧ Surrounded n pos c p ∧ (safeCorners n pos c p = 2 ∨ safeCorners n pos c p = 3) ∧
    (∃ q, BrokenCorner n pos c p q) ∧ ∃ q, SoundCorner n pos c p q

namespace Symmetry

/-- Left and right exchanged. (Points off the board are left alone.) -/
def mirror (n : Dim) : Symmetry n where
  map p := if p.2 < n.w then (p.1, n.w - 1 - p.2) else p
  inv p := if p.2 < n.w then (p.1, n.w - 1 - p.2) else p
  map_inv p := by
    by_cases h : p.2 < n.w
    · rw [if_pos h, if_pos (by simp only; omega)]
      apply Prod.ext <;> simp only; omega
    · rw [if_neg h, if_neg h]
  inv_map p := by
    by_cases h : p.2 < n.w
    · rw [if_pos h, if_pos (by simp only; omega)]
      apply Prod.ext <;> simp only; omega
    · rw [if_neg h, if_neg h]
  onBoard p := by
    by_cases h : p.2 < n.w
    · rw [if_pos h]; unfold OnBoard; simp only; omega
    · rw [if_neg h]
  adj p q hp hq := by
    unfold OnBoard at hp hq
    rw [if_pos hp.2, if_pos hq.2]
    unfold Adj
    simp only
    omega

/-- Nothing is turned. -/
def same (n : Dim) : Symmetry n where
  map p := p
  inv p := p
  map_inv _ := rfl
  inv_map _ := rfl
  onBoard _ := Iff.rfl
  adj _ _ _ _ := Iff.rfl

end Symmetry
end Spec
