import Verif.Proofs.Machine
import Verif.Props.Finite
/-!
# C90: no buffer overflows, no counter wraps, laziness cannot be observed
-/

namespace Model

open Spec

variable {dbg : Bool} {n : Dim} {m : Nat} {g : Game}

theorem Reach.plays (h : Reach dbg n m g) : ∃ m0 g0 b w, Fresh dbg n m0 g0 ∧ Plays dbg n g0 b w g := by
  induction h with
  | fresh hf => exact ⟨_, _, _, _, hf, .start⟩
  | play _ hp he e ih => obtain ⟨_, _, _, _, hf, ih⟩ := ih; exact ⟨_, _, _, _, hf, .play ih hp he e⟩
  | pass _ e ih => obtain ⟨_, _, _, _, hf, ih⟩ := ih; exact ⟨_, _, _, _, hf, .pass ih e⟩
  | resign _ e ih => obtain ⟨_, _, _, _, hf, ih⟩ := ih; exact ⟨_, _, _, _, hf, .resign ih e⟩
  | resume _ ih => obtain ⟨_, _, _, _, hf, ih⟩ := ih; exact ⟨_, _, _, _, hf, .resume ih⟩
  | setKomi _ ih => obtain ⟨_, _, _, _, hf, ih⟩ := ih; exact ⟨_, _, _, _, hf, .setKomi ih⟩

theorem Reach.prisoners_lt (h : Reach dbg n m g) : g.prisoners.1 + g.prisoners.2 < 2 ^ 31 := by
  obtain ⟨m0, g0, b, w, hf, h⟩ := h.plays
  obtain ⟨h1, h2⟩ := C11_conservation hf h
  have h3 := C57_stones_played hf h
  have hI := Reach.inv (.fresh hf)
  rw [numberOfStones_ok hI] at h1 h2
  dsimp only at h1 h2
  have h4 := colours_le n g0.goban.view
  have h5 : n.area ≤ 19 * 19 := hI.good.area_le
  unfold lifeOf at h3
  omega

theorem Reach.tryPlay_reach (h : Reach dbg n m g) {mv : Move} (hmv : mv.OnBoard n) {e : Option PlayError} {g' : Game}
    (e1 : g.tryPlay dbg mv = .ok (e, g')) : ∃ m', Reach dbg n m' g' := by
  unfold Game.tryPlay at e1
  split at e1
  · cases e1; exact ⟨_, h⟩
  · cases mv with
    | pass =>
      obtain ⟨g1, e2, e1⟩ := bind_eq_ok e1
      cases e1; exact ⟨_, .pass h e2⟩
    | resign c =>
      obtain ⟨g1, e2, e1⟩ := bind_eq_ok e1
      cases e1; exact ⟨_, .resign h e2⟩
    | play x y =>
      dsimp only at e1
      obtain ⟨col, e0, e1⟩ := bind_eq_ok e1
      split at e1
      · cases e1; exact ⟨_, h⟩
      · rename_i hc
        have hc := Classical.not_not.1 hc
        subst hc
        obtain ⟨e3, e4, e1⟩ := bind_eq_ok e1
        cases e3 with
        | some e5 => cases e1; exact ⟨_, h⟩
        | none =>
          obtain ⟨g1, e2, e1⟩ := bind_eq_ok e1
          cases e1
          exact ⟨_, .play h hmv e0 e2⟩

/-- One call of the 32-bit, capacity-checked version; compare `Game.call`. -/
def Game.call32 (dbg : Bool) (g : Game) : GOp → M (Option PlayError × Game)
  | .try_ m => g.tryPlay32 dbg m
  | .resume => .ok (none, g.resume)
  | .setKomi k => .ok (none, g.setKomi k)

/-- A sequence of calls of the 32-bit, capacity-checked version; compare `Game.run`. -/
def Game.run32 (dbg : Bool) (g : Game) : List GOp → M (List (Option PlayError) × Game)
  | [] => .ok ([], g)
  | c :: cs => do
    let r ← g.call32 dbg c
    let rs ← r.2.run32 dbg cs
    .ok (r.1 :: rs.1, rs.2)

/-! ## C90 -/

/-- **C90**, fixed capacities, every value of the board type (no hypothesis at all): the capacity checks of the four-entry vectors
of `push`, `remove_chain`, `get_connected_groups`, of the eight-entry vector of `liberties` and of the 361-entry vector of
`get_coords_by_color` never fail: with them and without them the calls give the same result. -/
theorem C90_boards (b : Goban) :
    (∀ p c, b.pushWthFeedbackCap dbg p c = b.pushWthFeedback dbg p c) ∧
    (∀ k, b.removeChainCap dbg k = b.removeChain dbg k) ∧
    (∀ p, b.connectedGroupsCap dbg p = b.connectedGroups dbg p) ∧
    (∀ grp : Group, grp.libertiesVecCap = .ok grp.libertiesVec) ∧
    (∀ c, b.getCoordsByColorCap dbg c = b.getCoordsByColor dbg c) :=
  ⟨Goban.pushWthFeedbackCap_eq b, Goban.removeChainCap_eq b, Goban.connectedGroupsCap_eq b,
    fun grp => Bits.iterOnesFromCap_eq grp.liberties 0, Goban.getCoordsByColorCap_eq b⟩

theorem stoneCount32 : ∀ (l : List Group) (acc : Nat × Nat), (l.foldl Goban.stoneCountStep acc).1 < 2 ^ 32 →
    (l.foldl Goban.stoneCountStep acc).2 < 2 ^ 32 → l.foldlM (Goban.stoneCountStep32 dbg) acc = .ok (l.foldl Goban.stoneCountStep acc) := by
  have mono : ∀ (l : List Group) (acc : Nat × Nat), acc.1 ≤ (l.foldl Goban.stoneCountStep acc).1 ∧
      acc.2 ≤ (l.foldl Goban.stoneCountStep acc).2 := by
    intro l
    induction l with
    | nil => intro acc; exact ⟨Nat.le_refl _, Nat.le_refl _⟩
    | cons a l ih =>
      intro acc
      rw [List.foldl_cons]
      have := ih (Goban.stoneCountStep acc a)
      have h2 : acc.1 ≤ (Goban.stoneCountStep acc a).1 ∧ acc.2 ≤ (Goban.stoneCountStep acc a).2 := by
        unfold Goban.stoneCountStep
        split <;> simp
      omega
  intro l
  induction l with
  | nil => intro acc _ _; rfl
  | cons a l ih =>
    intro acc h1 h2
    rw [List.foldl_cons] at h1 h2
    rw [List.foldlM_cons, List.foldl_cons]
    have hm := mono l (Goban.stoneCountStep acc a)
    have hs : Goban.stoneCountStep32 dbg acc a = .ok (Goban.stoneCountStep acc a) := by
      unfold Goban.stoneCountStep at hm
      unfold Goban.stoneCountStep32 Goban.stoneCountStep
      cases hc : a.color with
      | white =>
        rw [hc] at hm
        dsimp only at hm ⊢
        rw [addU32_ok, ok_bind]
        unfold Goban.stoneCountStep at h2
        rw [hc] at h2
        dsimp only at h2
        omega
      | black =>
        rw [hc] at hm
        dsimp only at hm ⊢
        rw [addU32_ok, ok_bind]
        unfold Goban.stoneCountStep at h1
        rw [hc] at h1
        dsimp only at h1
        omega
    rw [hs, ok_bind]
    exact ih _ h1 h2

/-- **C90**, the counters of `number_of_stones` do not wrap. -/
theorem C90_number_of_stones {b : Goban} (h : Board dbg n m b) : b.numberOfStones32 dbg = .ok b.numberOfStones := by
  obtain ⟨_, h2⟩ := C05_number_of_stones h
  have h5 : n.area ≤ 19 * 19 := h.inv.1.good.area_le
  unfold Goban.numberOfStones at h2 ⊢
  exact stoneCount32 _ _ (by omega) (by omega)

/-- **C90**, the rule checks of a reachable game, at any coordinate, on the board or not, and for any flags. -/
theorem C90_check_point (h : Reach dbg n m g) (p : Coord) (r : IllegalRules) : g.checkPointBy32 dbg p r = g.checkPointBy dbg p r :=
  Game.checkPointBy32_eq h.inv.fits16 p r

/-- **C90**, `play` of a reachable game, any move: the counters of captured stones and of prisoners do not wrap and no vector is
full. Where the call panics, it panics in both versions. -/
theorem C90_play (h : Reach dbg n m g) (mv : Move) : g.play32 dbg mv = g.play dbg mv :=
  Game.play32_eq h.inv.fits16 h.prisoners_lt mv

/-- **C90**, `try_play` of a reachable game, any move. -/
theorem C90_try_play (h : Reach dbg n m g) (mv : Move) : g.tryPlay32 dbg mv = g.tryPlay dbg mv :=
  Game.tryPlay32_eq h.inv.fits16 h.prisoners_lt mv

/-- **C90**, whole sessions. -/
theorem C90_run (h : Reach dbg n m g) {cs : List GOp} (hcs : ∀ c ∈ cs, c.OnBoard n) : g.run32 dbg cs = g.run dbg cs := by
  induction cs generalizing m g with
  | nil => rfl
  | cons c cs ih =>
    unfold Game.run32 Game.run
    have hc : g.call32 dbg c = g.call dbg c := by
      cases c with
      | try_ mv => exact C90_try_play h mv
      | resume => rfl
      | setKomi k => rfl
    refine bind_same hc (fun r e => ?_)
    have : ∃ m', Reach dbg n m' r.2 := by
      cases c with
      | try_ mv => exact h.tryPlay_reach (hcs (.try_ mv) (by simp)) e
      | resume => cases e; exact ⟨_, .resume h⟩
      | setKomi k => cases e; exact ⟨_, .setKomi h⟩
    obtain ⟨m', hr⟩ := this
    exact bind_same (ih hr (fun c' hc' => hcs c' (by simp [hc']))) (fun _ _ => rfl)

/-- The checks can fail: five entries do not fit four places, and the counter wraps (release) or panics (debug). -/
theorem C90_checks_bite : arrayCollect 4 [1, 2, 3, 4, 5] = panic ∧ addU32 true (2 ^ 32 - 1) 1 = panic ∧
    addU32 false (2 ^ 32 - 1) 1 = .ok 0 := by decide

/-- A session with a capture, on both versions. -/
theorem C90_witness : ∃ g0, Game.new (.custom 2 2) CHINESE = .ok g0 ∧ Reach true 2 0 g0 ∧
    okAnd (g0.run32 true [.try_ (.play 0 1), .try_ (.play 0 0), .try_ (.play 1 0), .try_ (.play 0 0)]) (fun r =>
      r.1 = [none, none, none, some .suicide] ∧ r.2.prisoners = (1, 0)) = true := by
  obtain ⟨g0, e0, h⟩ : ∃ g0, Game.new (.custom 2 2) CHINESE = .ok g0 ∧
    okAnd (g0.run32 true [.try_ (.play 0 1), .try_ (.play 0 0), .try_ (.play 1 0), .try_ (.play 0 0)]) (fun r =>
      r.1 = [none, none, none, some .suicide] ∧ r.2.prisoners = (1, 0)) = true := ⟨_, rfl, by decide +kernel⟩
  exact ⟨g0, e0, .fresh (.new (by decide) rfl e0), h⟩

end Model
