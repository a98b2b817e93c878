import Verif.Spec.Game
/-!
# Symmetries of the board

Turning or reflecting the board is a map of points that keeps the board and adjacency.
-/

namespace Spec
open Model (Color)

/-- A symmetry of the board: a bijection of points that keeps the board and adjacency on it. -/
structure Symmetry (n : Dim) where
  map : Pt → Pt
  inv : Pt → Pt
  map_inv : ∀ p, map (inv p) = p
  inv_map : ∀ p, inv (map p) = p
  onBoard : ∀ p, OnBoard n (map p) ↔ OnBoard n p
  adj : ∀ p q, OnBoard n p → OnBoard n q → (Adj (map p) (map q) ↔ Adj p q)

namespace Symmetry
variable {n : Dim}

/-- The way back. -/
def symm (σ : Symmetry n) : Symmetry n where
  map := σ.inv
  inv := σ.map
  map_inv := σ.inv_map
  inv_map := σ.map_inv
  onBoard p := by rw [← σ.onBoard, σ.map_inv]
  adj p q hp hq := by
    rw [← σ.adj _ _ (by rw [← σ.onBoard, σ.map_inv]; exact hp) (by rw [← σ.onBoard, σ.map_inv]; exact hq), σ.map_inv, σ.map_inv]

/-- One after the other. -/
def trans (σ τ : Symmetry n) : Symmetry n where
  map p := τ.map (σ.map p)
  inv p := σ.inv (τ.inv p)
  map_inv p := by rw [σ.map_inv, τ.map_inv]
  inv_map p := by rw [τ.inv_map, σ.inv_map]
  onBoard p := by rw [τ.onBoard, σ.onBoard]
  adj p q hp hq := by rw [τ.adj _ _ ((σ.onBoard p).2 hp) ((σ.onBoard q).2 hq), σ.adj _ _ hp hq]

/-- Reflection in the diagonal: rows and columns exchanged. -/
def transpose (n : Nat) : Symmetry n where
  map p := (p.2, p.1)
  inv p := (p.2, p.1)
  map_inv _ := rfl
  inv_map _ := rfl
  onBoard p := by unfold OnBoard; exact And.comm
  adj p q _ _ := by unfold Adj; exact Or.comm

/-- Upside down. (Points off the board are left alone.) -/
def flip (n : Dim) : Symmetry n where
  map p := if p.1 < n.h then (n.h - 1 - p.1, p.2) else p
  inv p := if p.1 < n.h then (n.h - 1 - p.1, p.2) else p
  map_inv p := by
    by_cases h : p.1 < n.h
    · rw [if_pos h, if_pos (by simp only; omega)]
      apply Prod.ext <;> simp only; omega
    · rw [if_neg h, if_neg h]
  inv_map p := by
    by_cases h : p.1 < n.h
    · rw [if_pos h, if_pos (by simp only; omega)]
      apply Prod.ext <;> simp only; omega
    · rw [if_neg h, if_neg h]
  onBoard p := by
    by_cases h : p.1 < n.h
    · rw [if_pos h]; unfold OnBoard; simp only; omega
    · rw [if_neg h]
  adj p q hp hq := by
    unfold OnBoard at hp hq
    rw [if_pos hp.1, if_pos hq.1]
    unfold Adj
    simp only
    omega

/-- A quarter turn. -/
def rotate (n : Nat) : Symmetry n := (transpose n).trans (flip n)

/-- The position seen after applying the symmetry to the board. -/
def pos (σ : Symmetry n) (x : Pos) : Pos := fun p => x (σ.inv p)

/-- The call meant after applying the symmetry to the board. -/
def call (σ : Symmetry n) : Call → Call
  | .play p => .play (σ.map p)
  | c => c

end Symmetry
end Spec
