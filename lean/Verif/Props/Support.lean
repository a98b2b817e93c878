import Verif.Proofs.Query
/-!
# Concrete boards and games for the non-vacuity examples

`mkBoard` and `mkGame` run a script through the model and fail as soon as a precondition of `Board`, `Fresh` or `Legal` is
not met; the lemmas below turn a successful run into a proof of reachability, so an example only has to evaluate a script.
-/

namespace Model
open Spec (OnBoard)

/-- A step of a board script. -/
inductive BOp where
  | push (x y : Nat) (c : Color)
  | remove (x y : Nat)

/-- Run a board script. -/
def mkBoardFrom (dbg : Bool) (n : Dim) (g : Goban) : List BOp → M Goban
  | [] => .ok g
  | .push x y c :: l =>
    if OnBoard n (x, y) ∧ g.getColor (x, y) = .ok none then do
      let g ← g.push dbg (x, y) c
      mkBoardFrom dbg n g l
    else panic
  | .remove x y :: l => do
    match ← g.boardAt (twoTo1dim g.size (x, y)) with
    | none => panic
    | some k => do
      let _ ← g.chains.chainAt k
      let g ← g.removeChain dbg k
      mkBoardFrom dbg n g l

def mkBoard (dbg : Bool) (n : Dim) (l : List BOp) : M Goban := do
  if n.Fits then do
    let g ← Goban.new n.sz
    mkBoardFrom dbg n g l
  else panic

/-- Number of pushes of a script. -/
def pushes : List BOp → Nat
  | [] => 0
  | .push _ _ _ :: l => pushes l + 1
  | .remove _ _ :: l => pushes l

theorem mkBoardFrom_board {dbg : Bool} {n : Dim} : ∀ (l : List BOp) {m : Nat} {g g' : Goban}, Board dbg n m g →
    mkBoardFrom dbg n g l = .ok g' → Board dbg n (m + pushes l) g'
  | [], m, g, g', h, e => by cases e; exact h
  | .push x y c :: l, m, g, g', h, e => by
    unfold mkBoardFrom at e
    split at e
    · rename_i hc
      obtain ⟨g1, e1, e2⟩ := bind_eq_ok e
      have := mkBoardFrom_board l (.push h hc.1 hc.2 e1) e2
      rw [pushes, show m + (pushes l + 1) = m + 1 + pushes l by omega]; exact this
    · cases e
  | .remove x y :: l, m, g, g', h, e => by
    unfold mkBoardFrom at e
    obtain ⟨o, e1, e⟩ := bind_eq_ok e
    cases o with
    | none => cases e
    | some k =>
      dsimp only at e
      obtain ⟨grp, e2, e⟩ := bind_eq_ok e
      obtain ⟨g1, e3, e⟩ := bind_eq_ok e
      rw [pushes]
      exact mkBoardFrom_board l (.remove h ⟨grp, e2⟩ e3) e

theorem mkBoard_board {dbg : Bool} {n : Dim} {l : List BOp} {g : Goban} (e : mkBoard dbg n l = .ok g) :
    Board dbg n (pushes l) g := by
  unfold mkBoard at e
  split at e
  · rename_i hf
    obtain ⟨g0, e0, e⟩ := bind_eq_ok e
    have := mkBoardFrom_board l (.new hf e0) e
    rwa [Nat.zero_add] at this
  · cases e

/-- Evaluate a check on the result of a run; a failed run fails the check. -/
def okAnd {α} (x : M α) (f : α → Bool) : Bool :=
  match x with
  | .ok a => f a
  | .error _ => false

theorem okAnd_iff {α} {x : M α} {f : α → Bool} : okAnd x f = true ↔ ∃ a, x = .ok a ∧ f a = true := by
  unfold okAnd
  cases x with
  | ok a => simp
  | error e => simp

theorem mkBoard_exists {dbg : Bool} {n : Dim} {l : List BOp} {f : Goban → Bool}
    (e : okAnd (mkBoard dbg n l) f = true) : ∃ g, Board dbg n (pushes l) g ∧ f g = true := by
  obtain ⟨g, e1, e2⟩ := okAnd_iff.1 e
  exact ⟨g, mkBoard_board e1, e2⟩

/-! ### Games -/

instance (n : Dim) (m : Move) : Decidable (m.OnBoard n) := by
  cases m <;> unfold Move.OnBoard <;> infer_instance

def mkGameFrom (dbg : Bool) (n : Dim) (g : Game) : List GOp → M Game
  | [] => .ok g
  | .try_ m :: l =>
    if m.OnBoard n then do
      let r ← g.tryPlay dbg m
      mkGameFrom dbg n r.2 l
    else panic
  | .resume :: l => mkGameFrom dbg n g.resume l
  | .setKomi k :: l => mkGameFrom dbg n (g.setKomi k) l

/-- Run a game script from a new game on a board of size `n`. -/
def mkGame (dbg : Bool) (n : Dim) (rule : Rule) (l : List GOp) : M Game := do
  let g ← Game.new (.custom n.h n.w) rule
  mkGameFrom dbg n g l

/-- Number of `try_play` calls of a script. -/
def tries : List GOp → Nat
  | [] => 0
  | .try_ _ :: l => tries l + 1
  | _ :: l => tries l

theorem mkGameFrom_legal {dbg : Bool} {n : Dim} : ∀ (l : List GOp) {m : Nat} {g g' : Game}, Legal dbg n m g →
    mkGameFrom dbg n g l = .ok g' → Legal dbg n (m + tries l) g'
  | [], m, g, g', h, e => by cases e; exact h
  | .try_ mv :: l, m, g, g', h, e => by
    unfold mkGameFrom at e
    split at e
    · rename_i hc
      obtain ⟨⟨r, g1⟩, e1, e2⟩ := bind_eq_ok e
      have := mkGameFrom_legal l (.tryPlay h hc e1) e2
      rw [tries, show m + (tries l + 1) = m + 1 + tries l by omega]; exact this
    · cases e
  | .resume :: l, m, g, g', h, e => by
    unfold mkGameFrom at e
    exact mkGameFrom_legal l (.resume h) e
  | .setKomi k :: l, m, g, g', h, e => by
    unfold mkGameFrom at e
    exact mkGameFrom_legal l (.setKomi h) e

theorem noDead_empty {n : Dim} {pos : Spec.Pos} (h : Spec.SameOn n pos (fun _ => none)) : Spec.NoDead n pos :=
  fun p hp hv => absurd (h p hp) hv

theorem new_fresh {dbg : Bool} {n : Dim} {rule : Rule} {g : Game} (hn : n.h < 256 ∧ n.w < 256 ∧ n.Fits) (e : Game.new (.custom n.h n.w) rule = .ok g) :
    Fresh dbg n 0 g := .new hn.2.2 (by simp [GobanSizes.toSize, Dim.sz, u8, Nat.mod_eq_of_lt hn.1, Nat.mod_eq_of_lt hn.2.1]) e

theorem new_legal {dbg : Bool} {n : Dim} {rule : Rule} {g : Game} (hn : n.h < 256 ∧ n.w < 256 ∧ n.Fits) (e : Game.new (.custom n.h n.w) rule = .ok g) :
    Legal dbg n 0 g := by
  refine .fresh (new_fresh hn e) (noDead_empty ?_)
  unfold Game.new at e
  obtain ⟨b, e1, e⟩ := bind_eq_ok e
  cases e
  apply new_view hn.2.2
  simpa [GobanSizes.toSize, Dim.sz, u8, Nat.mod_eq_of_lt hn.1, Nat.mod_eq_of_lt hn.2.1] using e1

theorem mkGame_legal {dbg : Bool} {n : Dim} {rule : Rule} {l : List GOp} {g : Game} (hn : n.h < 256 ∧ n.w < 256 ∧ n.Fits)
    (e : mkGame dbg n rule l = .ok g) : Legal dbg n (tries l) g := by
  unfold mkGame at e
  obtain ⟨g0, e0, e⟩ := bind_eq_ok e
  have := mkGameFrom_legal l (new_legal hn e0) e
  rwa [Nat.zero_add] at this

theorem mkGame_exists {dbg : Bool} {n : Dim} {rule : Rule} {l : List GOp} {f : Game → Bool} (hn : n.h < 256 ∧ n.w < 256 ∧ n.Fits)
    (e : okAnd (mkGame dbg n rule l) f = true) : ∃ g, Legal dbg n (tries l) g ∧ f g = true := by
  obtain ⟨g, e1, e2⟩ := okAnd_iff.1 e
  exact ⟨g, mkGame_legal hn e1, e2⟩

/-- No recorded group is dead. -/
def Goban.allAlive (g : Goban) : Bool := g.chains.all (fun o => match o with
  | none => true
  | some grp => !grp.isDead)

theorem noDead_of_allAlive {n : Dim} {g : Goban} (h : Inv n g) (ha : g.allAlive = true) : Spec.NoDead n g.view := by
  intro p hp hv
  cases hc : g.view p with
  | none => exact absurd hc hv
  | some c =>
    obtain ⟨k, grp, b1, b2, _⟩ := h.view_some hp hc
    rw [h.hasLiberty_iff b2 hp b1]
    unfold Goban.allAlive at ha
    rw [List.all_eq_true] at ha
    have hk : some grp ∈ g.chains := by
      unfold Goban.ch at b2
      rw [List.mem_iff_getElem?]
      refine ⟨k, ?_⟩
      cases hx : g.chains[k]? with
      | none => rw [hx] at b2; cases b2
      | some o => rw [hx] at b2; exact congrArg some b2
    simpa using ha _ hk

end Model
