import Verif.Proofs.Machine
import Verif.Props.AnySize
import Verif.Props.Machine
/-!
# The life of a board of any size

C98: at most `131070 · 362 + 361` stones are ever played on a board, whatever its size and the coordinates. C90 for these games: no
buffer overflows, no counter wraps, laziness cannot be observed.
-/

namespace Model
open Spec

variable {dbg : Bool} {s : Size} {b w : Nat} {g : Game}

theorem cnt_both_le (f : Nat → MaybeColor) (N : Nat) : cnt f .black N + cnt f .white N ≤ N := by
  unfold cnt
  have : ∀ l : List Nat, l.countP (fun i => decide (f i = some .black)) + l.countP (fun i => decide (f i = some .white)) ≤ l.length := by
    intro l
    induction l with
    | nil => simp
    | cons a l ih =>
      simp only [List.countP_cons, List.length_cons]
      cases f a with
      | none => simp; omega
      | some c => cases c <;> simp <;> omega
  have := this (List.range N)
  rwa [List.length_range] at this

/-- The stones on the cells and the prisoners are the stones that were put. -/
theorem AnyGame.sum (h : AnyGame dbg s b w g) :
    cnt g.goban.col .black 361 + cnt g.goban.col .white 361 + (g.prisoners.1 + g.prisoners.2) = b + w := by
  by_cases hz : s.1 = 0 ∨ s.2 = 0
  · obtain ⟨e, _, rfl, rfl, hp⟩ := h.zero hz
    have h5 := (new_any e).2.2.2.2.1
    have : ∀ c, cnt g.goban.col c 361 = 0 := by
      intro c
      unfold cnt
      rw [List.countP_eq_zero]
      intro i _
      simp [h5 i]
    rw [this, this, hp]; rfl
  · obtain ⟨_, _, _, h4⟩ := h.wgame (by omega) (by omega)
    have h1 := h4 .black
    have h2 := h4 .white
    unfold removedOf putOf at h1 h2
    simp only at h1 h2
    omega

/-- What a stone does to the slots and the prisoners: a slot is used up, or nobody is captured. -/
theorem play_slots {x y : Nat} {g' : Game} (e : g.play dbg (.play x y) = .ok g') :
    g.goban.chains.length + spent g.goban.chains ≤ g'.goban.chains.length + spent g'.goban.chains ∧
    (g.goban.chains.length + spent g.goban.chains < g'.goban.chains.length + spent g'.goban.chains ∨ g'.prisoners = g.prisoners) := by
  unfold Game.play at e
  dsimp only at e
  obtain ⟨l, _, e⟩ := bind_eq_ok e
  obtain ⟨f, e1, e⟩ := bind_eq_ok e
  obtain ⟨g1, e2, e⟩ := bind_eq_ok e
  cases e
  unfold Game.removeCapturedStones at e2
  dsimp only at e2
  obtain ⟨c, e3, e2⟩ := bind_eq_ok e2
  cases e2
  obtain ⟨_, _, _, _, h1⟩ := pushWthFeedback_clen e1
  have h2 := pushWthFeedback_spent e1
  have h3 := removeCaptured_clen e3
  dsimp only
  rcases removeCaptured_spent e3 with h5 | ⟨h5, h6⟩
  · exact ⟨by omega, Or.inl (by omega)⟩
  · refine ⟨by rw [h5]; omega, Or.inr ?_⟩
    rw [h6]
    rfl

/-- **C98**, the life of a board. Whatever the size, the coordinates, the rule and the calls, at most 47,447,701 stones are played;
one more panics. -/
theorem C98_life (h : AnyGame dbg s b w g) : b + w ≤ 131070 * 362 + 361 := by
  have hk := h.sum
  have hc := cnt_both_le g.goban.col 361
  have key : g.prisoners.1 + g.prisoners.2 ≤ (g.goban.chains.length + spent g.goban.chains) * 362 := by
    clear hk hc
    induction h with
    | new hs e =>
      unfold Game.new at e
      obtain ⟨gb, e1, e⟩ := bind_eq_ok e
      cases e
      exact Nat.zero_le _
    | @play b w g x y g' h hcol e ih =>
      have h1 := (AnyGame.play h hcol e).sum
      have h2 := h.sum
      have h3 := cnt_both_le g.goban.col 361
      have h5 : (if g.turn = .black then 1 else 0) + (if g.turn = .white then 1 else 0) = 1 := by cases g.turn <;> rfl
      have h4 := play_slots e
      rcases h4 with ⟨h4, h6 | h6⟩
      · have : (g.goban.chains.length + spent g.goban.chains + 1) * 362 ≤
          (g'.goban.chains.length + spent g'.goban.chains) * 362 := Nat.mul_le_mul_right _ h6
        omega
      · rw [h6]
        exact Nat.le_trans ih (Nat.mul_le_mul_right _ h4)
    | pass h e ih =>
      unfold Game.play at e
      obtain ⟨_, _, e⟩ := bind_eq_ok e
      cases e; exact ih
    | resign h e ih => cases e; exact ih
    | resume h ih => exact ih
    | setKomi h ih => exact ih
    | @stone b w g p c bd h hc e ih =>
      show g.prisoners.1 + g.prisoners.2 ≤ (bd.chains.length + spent bd.chains) * 362
      unfold Goban.push at e
      obtain ⟨_, _, e⟩ := bind_eq_ok e
      obtain ⟨_, _, e⟩ := bind_eq_ok e
      obtain ⟨f, e1, e⟩ := bind_eq_ok e
      cases e
      obtain ⟨_, _, _, _, h1⟩ := pushWthFeedback_clen e1
      have h2 := pushWthFeedback_spent e1
      exact Nat.le_trans ih (Nat.mul_le_mul_right _ (by omega))
    | told h ih => exact ih
  have h1 := h.rep.1.few
  have h2 := spent_le g.goban.chains
  have : (g.goban.chains.length + spent g.goban.chains) * 362 ≤ 131070 * 362 := Nat.mul_le_mul_right _ (by omega)
  omega

/-- A stone put on an empty cell leaves the other cells as they are. -/
theorem AnyGame.others (h : AnyGame dbg s b w g) {p q : Coord} {c : Color} {bd : Goban} (hp : g.goban.getColor p = .ok none)
    (e : g.goban.push dbg p c = .ok bd) (hne : q.1 * s.1 + q.2 ≠ p.1 * s.1 + p.2) : bd.getColor q = g.goban.getColor q := by
  by_cases hz : s.1 = 0 ∨ s.2 = 0
  · unfold Goban.push at e
    obtain ⟨_, _, e⟩ := bind_eq_ok e
    obtain ⟨_, _, e⟩ := bind_eq_ok e
    rw [push_zero (by rw [h.rep.2]; exact hz)] at e
    cases e
  obtain ⟨h1, h2, _⟩ := h.wgame (by omega) (by omega)
  obtain ⟨hp1, hb⟩ := h1.weak.rep.empty_of hp
  have e' : g.goban.push false p c = .ok bd := by
    cases dbg with
    | false => exact e
    | true => exact (Goban.push_le ..).ok _ e
  obtain ⟨f, ef, rfl⟩ := push_of_release e'
  rcases push_release (c := c) h1.weak rfl hp1 hb with ⟨f', ef', hf⟩ | ⟨ef', _⟩
  · rw [ef] at ef'
    cases ef'
    by_cases hq : twoTo1dim g.goban.size q < 361
    · show f.goban.getColorIdx _ = g.goban.getColorIdx _
      rw [hf.size, hf.weak.rep.getColorIdx hq, h1.weak.rep.getColorIdx hq, hf.col, if_neg]
      rw [h2]
      exact hne
    · rw [h1.weak.rep.getColor_beyond (by omega), hf.weak.rep.getColor_beyond (by rw [hf.size]; omega)]
  · rw [ef] at ef'; cases ef'

theorem AnyGame.empty (h : AnyGame dbg s b w g) {p : Coord} {c : Color} {bd : Goban} (e : g.goban.push dbg p c = .ok bd)
    (hp : ∀ x, g.goban.getColor p ≠ .ok (some x)) : g.goban.getColor p = .ok none := by
  unfold Goban.push at e
  obtain ⟨_, _, e⟩ := bind_eq_ok e
  obtain ⟨_, _, e⟩ := bind_eq_ok e
  obtain ⟨f, ef, e⟩ := bind_eq_ok e
  have hl := pushWthFeedback_lt ef
  rw [h.rep.1.nlen] at hl
  have hg : g.goban.getColor p = .ok (g.goban.col (twoTo1dim g.goban.size p)) := h.rep.1.getColorIdx hl
  cases hc : g.goban.col (twoTo1dim g.goban.size p) with
  | none => rw [hg, hc]
  | some x => exact absurd (hg.trans (by rw [hc])) (hp x)

theorem AnyGame.stones : ∀ (l : List Stone) {b w : Nat} {g : Game}, AnyGame dbg s b w g →
    (∀ x ∈ l, ∀ c, g.goban.getColor x.coord ≠ .ok (some c)) → (l.map (fun x => x.coord.1 * s.1 + x.coord.2)).Nodup → ∀ bd,
    l.foldlM (fun g x => Goban.push dbg g x.coord x.color) g.goban = .ok bd →
    AnyGame dbg s (b + (l.filter (fun x => x.color = .black)).length) (w + (l.filter (fun x => x.color = .white)).length)
      { g with goban := bd }
  | [], b, w, g, h, _, _, bd, e => by cases e; exact h
  | x :: l, b, w, g, h, he, hn, bd, e => by
    rw [List.foldlM_cons] at e
    obtain ⟨bd1, e1, e⟩ := bind_eq_ok e
    rw [List.map_cons, List.nodup_cons] at hn
    have hx := h.empty e1 (he x (by simp))
    have h1 := AnyGame.stone h hx e1
    have := AnyGame.stones l h1 (fun y hy c hc => he y (by simp [hy]) c (by
      rw [← h.others hx e1 (fun hxy => hn.1 (List.mem_map.2 ⟨y, hy, hxy⟩))]; exact hc)) hn.2 bd e
    have hb : ∀ c : Color, (List.filter (fun y : Stone => decide (y.color = c)) (x :: l)).length =
        (if x.color = c then 1 else 0) + (List.filter (fun y : Stone => decide (y.color = c)) l).length := by
      intro c
      rw [List.filter_cons]
      by_cases hc : x.color = c
      · simp [hc]; omega
      · simp [hc]
    rw [hb, hb, ← Nat.add_assoc, ← Nat.add_assoc]
    exact this

/-- **C98**, `put_handicap` with points whose cells are distinct and not occupied gives such a game. -/
theorem C98_handicap (h : AnyGame dbg s b w g) {ps : List Coord} (he : ∀ p ∈ ps, ∀ c, g.goban.getColor p ≠ .ok (some c))
    (hn : (ps.map (fun p => p.1 * s.1 + p.2)).Nodup) {g' : Game} (e : g.putHandicap dbg ps = .ok g') :
    AnyGame dbg s (b + ps.length) w g' := by
  unfold Game.putHandicap Goban.pushMany at e
  obtain ⟨bd, e1, e⟩ := bind_eq_ok e
  cases e
  have := h.stones (ps.map (fun p => { coord := p, color := .black }))
    (by intro x hx; obtain ⟨p, hp, rfl⟩ := List.mem_map.1 hx; exact he p hp)
    (by rw [List.map_map]; exact hn) bd (by rw [List.foldlM_map]; exact e1)
  have hb : ((ps.map (fun p => ({ coord := p, color := .black } : Stone))).filter (fun x => decide (x.color = .black))).length =
      ps.length := by
    rw [List.filter_map, List.length_map]
    congr 1
    exact List.filter_eq_self.2 (by simp)
  have hw : ((ps.map (fun p => ({ coord := p, color := .black } : Stone))).filter (fun x => decide (x.color = .white))).length = 0 := by
    rw [List.filter_map, List.length_map]
    simp
  rw [hb, hw] at this
  exact .told this

/-- **C98**, the builder: with any size and any handicap points and stones whose cells are distinct, what `build` returns for a builder
without moves is such a game; the moves are then played with `play`. -/
theorem C98_builder {gb : GameBuilder}
    (hn : ((gb.handicapPoints ++ gb.setup.map Stone.coord).map (fun p => p.1 * gb.size.1 + p.2)).Nodup) {r : Game × GameBuilder}
    (hm : gb.moves = []) (e : gb.build dbg = .ok r) :
    AnyGame dbg gb.size (gb.handicapPoints.length + (gb.setup.filter (fun x => x.color = .black)).length)
      (gb.setup.filter (fun x => x.color = .white)).length r.1 := by
  unfold GameBuilder.build GameBuilder.buildInner at e
  obtain ⟨g, e1, e⟩ := bind_eq_ok e
  obtain ⟨g', e2, e1⟩ := bind_eq_ok e1
  rw [hm] at e1
  cases e1
  cases e
  unfold GameBuilder.start at e2
  obtain ⟨b0, e0, e2⟩ := bind_eq_ok e2
  obtain ⟨b1, e3, e2⟩ := bind_eq_ok e2
  obtain ⟨b2, e4, e2⟩ := bind_eq_ok e2
  cases e2
  obtain ⟨_, _, hs, _, hcol, h1, h2⟩ := new_any e0
  have hsz : GobanSizes.toSize (.custom gb.size.1 gb.size.2) = gb.size := by
    unfold GobanSizes.toSize u8
    dsimp only
    rw [Nat.mod_eq_of_lt (by omega), Nat.mod_eq_of_lt (by omega)]
  have hnew : Game.new (.custom gb.size.1 gb.size.2) gb.rule = .ok
      { goban := b0, turn := .black, prisoners := (0, 0), passes := 0, outcome := none, rule := gb.rule, handicap := 0, history := [],
        koPoint := none } := by
    unfold Game.new
    rw [hsz, e0]
    rfl
  have h0 : AnyGame dbg gb.size 0 0 _ := .new hsz hnew
  have := h0.stones (gb.handicapPoints.map (fun p => { coord := p, color := .black }) ++ gb.setup) ?_ ?_ b2 ?_
  · rw [List.filter_append, List.filter_append, List.length_append, List.length_append] at this
    have hb : ((gb.handicapPoints.map (fun p => ({ coord := p, color := .black } : Stone))).filter
        (fun x => decide (x.color = .black))).length = gb.handicapPoints.length := by
      rw [List.filter_map, List.length_map]
      congr 1
      exact List.filter_eq_self.2 (by simp)
    have hw : ((gb.handicapPoints.map (fun p => ({ coord := p, color := .black } : Stone))).filter
        (fun x => decide (x.color = .white))).length = 0 := by
      rw [List.filter_map, List.length_map]
      simp
    rw [hb, hw, Nat.zero_add, Nat.zero_add, Nat.zero_add] at this
    exact .told this
  · intro x _ c hc
    by_cases hx : twoTo1dim b0.size x.coord < 361
    · have : b0.getColor x.coord = .ok (b0.col (twoTo1dim b0.size x.coord)) := (new_any e0).1.getColorIdx hx
      rw [hcol] at this
      rw [show b0.getColor x.coord = .ok (some c) from hc] at this
      cases this
    · have := (new_any e0).1.getColor_beyond (c := x.coord) (by omega)
      rw [show b0.getColor x.coord = .ok (some c) from hc] at this
      cases this
  · rw [List.map_append, List.map_map] at hn ⊢
    exact hn
  · rw [List.foldlM_append, List.foldlM_map]
    dsimp only
    rw [e3, ok_bind]
    exact e4

/-- A builder for a board of 2 by 3 with a handicap stone and a white stone, in both builds. -/
theorem C98_builder_example (dbg : Bool) : ∃ gb : GameBuilder, gb.size = (2, 3) ∧ gb.moves = [] ∧
    ((gb.handicapPoints ++ gb.setup.map Stone.coord).map (fun p => p.1 * gb.size.1 + p.2)).Nodup ∧
    okAnd (gb.build dbg) (fun r => r.1.goban.getColor (0, 1) = .ok (some .black) ∧ r.1.goban.getColor (1, 1) = .ok (some .white)) :=
  ⟨((GameBuilder.default.setSize (2, 3)).putHandicap [(0, 1)]).add { coord := (1, 1), color := .white }, rfl, rfl, by decide,
    by cases dbg <;> decide +kernel⟩

/-! ## C90 for these games -/

theorem Rep.fits16 {g : Goban} (h : Rep g) : g.Fits16 := by
  intro grp hm
  obtain ⟨k, hk⟩ := List.getElem?_of_mem hm
  have hk' : g.ch k = some grp := by unfold Goban.ch; rw [hk]; rfl
  rw [h.numStones hk']
  have := List.countP_le_length (p := fun i => decide (g.bd i = some k)) (l := List.range 361)
  rw [List.length_range] at this
  omega

theorem AnyGame.prisoners_lt (h : AnyGame dbg s b w g) : g.prisoners.1 + g.prisoners.2 < 2 ^ 31 := by
  have h1 := h.sum
  have h2 := C98_life h
  omega

/-- **C90**, the rule checks, on a board of any size, at any pair of coordinates and for any flags. -/
theorem C90_any_check_point (h : AnyGame dbg s b w g) (p : Coord) (r : IllegalRules) :
    g.checkPointBy32 dbg p r = g.checkPointBy dbg p r :=
  Game.checkPointBy32_eq h.rep.1.fits16 p r

/-- **C90**, `play` on a board of any size, any move. -/
theorem C90_any_play (h : AnyGame dbg s b w g) (mv : Move) : g.play32 dbg mv = g.play dbg mv :=
  Game.play32_eq h.rep.1.fits16 h.prisoners_lt mv

/-- **C90**, `try_play` on a board of any size, any move, whatever its coordinates. -/
theorem C90_any_try_play (h : AnyGame dbg s b w g) (mv : Move) : g.tryPlay32 dbg mv = g.tryPlay dbg mv :=
  Game.tryPlay32_eq h.rep.1.fits16 h.prisoners_lt mv

theorem AnyGame.tryPlay_any (h : AnyGame dbg s b w g) {mv : Move} {e : Option PlayError} {g' : Game}
    (e1 : g.tryPlay dbg mv = .ok (e, g')) : ∃ b' w', AnyGame dbg s b' w' g' := by
  unfold Game.tryPlay at e1
  split at e1
  · cases e1; exact ⟨_, _, h⟩
  · cases mv with
    | pass =>
      obtain ⟨g1, e2, e1⟩ := bind_eq_ok e1
      cases e1; exact ⟨_, _, .pass h e2⟩
    | resign c =>
      obtain ⟨g1, e2, e1⟩ := bind_eq_ok e1
      cases e1; exact ⟨_, _, .resign h e2⟩
    | play x y =>
      dsimp only at e1
      obtain ⟨col, e0, e1⟩ := bind_eq_ok e1
      split at e1
      · cases e1; exact ⟨_, _, h⟩
      · rename_i hc
        have hc := Classical.not_not.1 hc
        subst hc
        obtain ⟨e3, e4, e1⟩ := bind_eq_ok e1
        cases e3 with
        | some e5 => cases e1; exact ⟨_, _, h⟩
        | none =>
          obtain ⟨g1, e2, e1⟩ := bind_eq_ok e1
          cases e1
          exact ⟨_, _, .play h e0 e2⟩

/-- **C90**, whole sessions on a board of any size, whatever the coordinates of the moves. -/
theorem C90_any_run (h : AnyGame dbg s b w g) (cs : List GOp) : g.run32 dbg cs = g.run dbg cs := by
  induction cs generalizing b w g with
  | nil => rfl
  | cons c cs ih =>
    unfold Game.run32 Game.run
    have hc : g.call32 dbg c = g.call dbg c := by
      cases c with
      | try_ mv => exact C90_any_try_play h mv
      | resume => rfl
      | setKomi k => rfl
    refine bind_same hc (fun r e => ?_)
    have : ∃ b' w', AnyGame dbg s b' w' r.2 := by
      cases c with
      | try_ mv => exact h.tryPlay_any e
      | resume => cases e; exact ⟨_, _, .resume h⟩
      | setKomi k => cases e; exact ⟨_, _, .setKomi h⟩
    obtain ⟨b', w', hr⟩ := this
    exact bind_same (ih hr) (fun _ _ => rfl)

/-- **C90**, the counters of `number_of_stones` on a board of any size. -/
theorem C90_any_number_of_stones (h : AnyGame dbg s b w g) : g.goban.numberOfStones32 dbg = .ok g.goban.numberOfStones := by
  have h1 := cnt_both_le g.goban.col 361
  have h2 := h.rep.1.numberOfStones
  unfold Goban.numberOfStones at h2 ⊢
  exact stoneCount32 _ _ (by rw [h2]; omega) (by rw [h2]; omega)

/-- A game on a board of 3 by 2, whose width does not divide the height, with a stone outside the board. -/
theorem C90_any_witness : ∃ b w g, AnyGame true (3, 2) b w g ∧ (g.goban.getColor (1, 4) = .ok (some .white) : Bool) = true := by
  obtain ⟨b, w, g, h, e⟩ := anyGame_exists (dbg := true) (size := .custom 3 2) (rule := JAPANESE) (l := [.play 0 0, .play 1 4])
    (f := fun g => decide (g.goban.getColor (1, 4) = .ok (some .white))) (by decide +kernel)
  exact ⟨b, w, g, h, by simpa using e⟩

end Model
