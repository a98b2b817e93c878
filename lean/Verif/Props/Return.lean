import Verif.Props.Update
import Verif.Props.Symmetry
/-!
# A position that comes back: C121
-/

namespace Model
open Spec (OnBoard Adj Linked HasLiberty NoDead place SameOn Pos playLocal captureAround)

variable {dbg : Bool} {n : Dim} {m : Nat} {g g' : Game}

/-- Every point of the board shows the same in both games. -/
def SamePosition (n : Dim) (g g' : Game) : Prop := ∀ p, OnBoard n p → g'.goban.getColor p = g.goban.getColor p

theorem SamePosition.sameOn {m' : Nat} (hs : SamePosition n g g') (h : Reach dbg n m g) (h' : Reach dbg n m' g') :
    SameOn n g'.goban.view g.goban.view := by
  intro p hp
  have := hs p hp
  rw [h'.inv.getColor_view hp, h.inv.getColor_view hp] at this
  exact Except.ok.inj this

theorem Plays.from_reach {b w : Nat} (hp : Plays dbg n g b w g') (h : Reach dbg n m g) : ∃ m', Reach dbg n m' g' := by
  induction hp with
  | start => exact ⟨_, h⟩
  | play _ h1 h2 h3 ih => obtain ⟨m', ih⟩ := ih; exact ⟨_, .play ih h1 h2 h3⟩
  | pass _ h1 ih => obtain ⟨m', ih⟩ := ih; exact ⟨_, .pass ih h1⟩
  | resign _ h1 ih => obtain ⟨m', ih⟩ := ih; exact ⟨_, .resign ih h1⟩
  | resume _ ih => obtain ⟨m', ih⟩ := ih; exact ⟨_, .resume ih⟩
  | setKomi _ ih => obtain ⟨m', ih⟩ := ih; exact ⟨_, .setKomi ih⟩

/-- Stones on the board and prisoners grow by the stones put. -/
theorem Plays.conserve {b w : Nat} (hp : Plays dbg n g b w g') (h : Reach dbg n m g) :
    g'.goban.numberOfStones.1 + g'.prisoners.2 = g.goban.numberOfStones.1 + g.prisoners.2 + b ∧
    g'.goban.numberOfStones.2 + g'.prisoners.1 = g.goban.numberOfStones.2 + g.prisoners.1 + w := by
  have count : ∀ {g : Game} {m : Nat}, Reach dbg n m g → g.goban.numberOfStones =
      (cnt g.goban.col .black 361, cnt g.goban.col .white 361) := by
    intro g m hr
    rw [numberOfStones_ok hr.inv, cnt_eq_count hr.inv, cnt_eq_count hr.inv]
  induction hp with
  | start => exact ⟨rfl, rfl⟩
  | @play b w g1 x y g2 h1 hp he e ih =>
    obtain ⟨m, hr⟩ := Plays.from_reach h1 h
    obtain ⟨s, hs, e1, _, _, _, _, e2⟩ := (hr.play_spec hp he).of_ok e
    have hw := hs.cnt .white
    have hb := hs.cnt .black
    rw [count hr] at ih
    rw [count (.play hr hp he e), e1, e2]
    unfold removedOf at hw hb
    have t1 : (if Color.black = g1.turn then 1 else 0) = (if g1.turn = .black then 1 else 0) := by simp only [eq_comm]
    have t2 : (if Color.white = g1.turn then 1 else 0) = (if g1.turn = .white then 1 else 0) := by simp only [eq_comm]
    rw [t1] at hb
    rw [t2] at hw
    dsimp only at hw hb ih ⊢
    omega
  | pass h e ih =>
    unfold Game.play at e
    obtain ⟨_, _, e⟩ := bind_eq_ok e
    cases e; exact ih
  | resign h e ih => cases e; exact ih
  | resume h ih => exact ih
  | setKomi h ih => exact ih

/-- **C121**: when a position comes back, as many black stones have been taken as have been put, and as many white ones. -/
theorem C121_taken (h : Reach dbg n m g) {b w : Nat} (hp : Plays dbg n g b w g') (hs : SamePosition n g g') :
    g'.prisoners = (g.prisoners.1 + w, g.prisoners.2 + b) := by
  obtain ⟨m', h'⟩ := hp.from_reach h
  obtain ⟨c1, c2⟩ := hp.conserve h
  rw [numberOfStones_ok h.inv, numberOfStones_ok h'.inv] at c1 c2
  have hv := hs.sameOn h h'
  dsimp only at c1 c2
  rw [count_congr hv] at c1
  rw [count_congr hv] at c2
  apply Prod.ext <;> dsimp only <;> omega

/-- **C121**: the scores of a position that has come back, under every way of counting. Stones and territory count what they did; if
prisoners count, each side has gained what the other has put. -/
theorem C121_score {n : Nat} (h : Reach dbg n m g) {b w : Nat} (hp : Plays dbg n g b w g') (hs : SamePosition n g g') {f : ScoreRules}
    {K : Int} (hx : Exact g f K) (hx' : Exact g' f K) {ord ord' : List Point → List Point} (hord : ∀ l, (ord l).Perm l)
    (hord' : ∀ l, (ord' l).Perm l) :
    ∃ x y : Rat, g.calculateScoreBy dbg ord f = .ok (.fin x, .fin y) ∧
      g'.calculateScoreBy dbg ord' f = .ok (.fin (x + if f.prisonners then (w : Rat) else 0), .fin (y + if f.prisonners then (b : Rat) else 0)) := by
  obtain ⟨m', h'⟩ := hp.from_reach h
  have hv := hs.sameOn h h'
  refine ⟨_, _, C21_calculate_score_by h hx hord, ?_⟩
  rw [C21_calculate_score_by h' hx' hord']
  unfold blackPoints whitePoints
  rw [territorySize_congr hv, territorySize_congr hv, count_congr hv (some .black), count_congr hv (some .white), C121_taken h hp hs]
  refine congrArg Except.ok (Prod.ext (congrArg F32.fin ?_) (congrArg F32.fin ?_)) <;> dsimp only <;>
    cases f.prisonners <;> cases f.stones <;>
    simp only [Bool.false_eq_true, if_true, if_false, Rat.natCast_add, Nat.add_zero, Rat.add_zero] <;> grind

/-- **C121**: if the position has come back after equally many stones by both, the lead is the same under every way of counting, and a
game that ends by two passes ends in the same result, whether it ends before or after. -/
theorem C121_result {n : Nat} (h : Reach dbg n m g) {b : Nat} (hp : Plays dbg n g b b g') (hs : SamePosition n g g') {K : Int}
    (hx : Exact g g.rule.flagScore K) (hx' : Exact g' g.rule.flagScore K) (hr : g'.rule.flagScore = g.rule.flagScore)
    (ho : g.outcome = none) (ho' : g'.outcome = none) (h2 : 2 ≤ g.passes) (h2' : 2 ≤ g'.passes) {ord ord' : List Point → List Point}
    (hord : ∀ l, (ord l).Perm l) (hord' : ∀ l, (ord' l).Perm l) : g'.getOutcome dbg ord' = g.getOutcome dbg ord := by
  obtain ⟨m', h'⟩ := hp.from_reach h
  obtain ⟨x, y, e1, e2⟩ := C121_score h hp hs hx hx' hord hord'
  obtain ⟨x1, y1, s1, d1, b1, w1⟩ := C22_two_passes h ho h2 hx hord
  rw [← hr] at hx'
  obtain ⟨x2, y2, s2, d2, b2, w2⟩ := C22_two_passes h' ho' h2' hx' hord'
  have s1 : g.calculateScoreBy dbg ord g.rule.flagScore = .ok (.fin x1, .fin y1) := s1
  have s2 : g'.calculateScoreBy dbg ord' g'.rule.flagScore = .ok (.fin x2, .fin y2) := s2
  rw [e1] at s1
  rw [hr, e2] at s2
  cases s1
  cases s2
  rcases (by grind : x < y ∨ x = y ∨ y < x) with hlt | heq | hgt
  · rw [w1 hlt, w2 (by grind)]
    congr 4
    grind
  · rw [d1 heq, d2 (by rw [heq])]
  · rw [b1 hgt, b2 (by grind)]
    congr 4
    grind

/-- A game on 4 × 4 that ended by two passes and is resumed: Black takes a ko, both pass, White takes it back after another resumption, and both
pass again. Each side has put one stone, and the result by territory and prisoners is the same. -/
example : ∃ g, Legal true 4 10 g ∧ okAnd (do
      let r ← g.run true [.resume, .try_ (.play 1 2), .try_ .pass, .try_ .pass, .resume, .try_ (.play 1 1), .try_ .pass, .try_ .pass]
      let o ← g.getOutcome true id
      let o' ← r.2.getOutcome true id
      .ok (r, o, o')) (fun r => decide (r.1.1.all (· == none) = true ∧ r.1.2.prisoners = (1, 1) ∧ g.prisoners = (0, 0) ∧
        r.1.2.goban.zobristHash = g.goban.zobristHash ∧ r.2.1 = r.2.2 ∧ g.passes = 2 ∧ r.1.2.passes = 2 ∧ r.2.1.isSome = true)) = true :=
  mkGame_exists (rule := JAPANESE) (l := [.try_ (.play 0 1), .try_ (.play 0 2), .try_ (.play 1 0), .try_ (.play 1 3), .try_ (.play 2 1),
    .try_ (.play 2 2), .try_ (.play 3 3), .try_ (.play 1 1), .try_ .pass, .try_ .pass]) (by decide) (by decide +kernel)

/-- Stones accepted by `try_play` one directly after the other, the last one first in the list. -/
inductive Stones (dbg : Bool) (n : Dim) (g : Game) : List Coord → Game → Prop
  | start : Stones dbg n g [] g
  | play {ps g1 g2 x y} : Stones dbg n g ps g1 → OnBoard n (x, y) → g1.tryPlay dbg (.play x y) = .ok (none, g2) →
      Stones dbg n g ((x, y) :: ps) g2

theorem Stones.plays {ps : List Coord} (h : Stones dbg n g ps g') : ∃ b w, Plays dbg n g b w g' ∧ b + w = ps.length ∧
    (g'.turn = g.turn → b = w) ∧ (g'.turn ≠ g.turn → if g.turn = .black then b = w + 1 else w = b + 1) := by
  induction h with
  | start => exact ⟨0, 0, .start, rfl, fun _ => rfl, fun h => absurd rfl h⟩
  | @play ps g1 g2 x y h hp e ih =>
    obtain ⟨b, w, ih, h1, h2, h3⟩ := ih
    have ht := (C16_play (C13_accepted_is_play e)).1
    refine ⟨_, _, .play ih hp (accepted_stone e).1 (C13_accepted_is_play e), ?_, ?_, ?_⟩
    · cases g1.turn <;> simp [← h1] <;> omega
    all_goals
      rw [ht]
      revert h2 h3
      cases g1.turn <;> cases g.turn <;> simp [Color.opp]; omega

theorem Stones.legal {ps : List Coord} (h : Stones dbg n g ps g') (hl : Legal dbg n m g) : ∃ m', Legal dbg n m' g' := by
  induction h with
  | start => exact ⟨_, hl⟩
  | play _ hp e ih => obtain ⟨m', ih⟩ := ih; exact ⟨_, .tryPlay (mv := .play _ _) ih hp e⟩

theorem stands_after {pos : Pos} {p : Coord} {c : Color} : playLocal n false pos p c p = some c := by
  show captureAround n (place pos p c) p c.opp p = some c
  unfold captureAround
  rw [if_neg, place_self]
  rintro ⟨h, _⟩
  rw [place_self] at h
  exact opp_ne c (Option.some.inj h).symm

/-- **C121**: under a rule that forbids ko and suicide, with stones accepted one directly after the other, a position comes back after
three stones at the earliest; with the same player to move after four at the earliest, and then both sides have put equally many. -/
theorem C121_three (h : Legal dbg n m g) (hk : g.rule.flagIllegal.ko = true) (hsu : g.rule.flagIllegal.suicide = true) {ps : List Coord}
    (hps : Stones dbg n g ps g') (hne : ps ≠ []) (hs : SamePosition n g g') :
    3 ≤ ps.length ∧ ∃ b w, Plays dbg n g b w g' ∧ b + w = ps.length ∧ 1 ≤ b ∧ 1 ≤ w ∧ (g'.turn = g.turn → 4 ≤ ps.length ∧ b = w) := by
  have h3 : 3 ≤ ps.length := by
    cases hps with
    | start => exact absurd rfl hne
    | @play ps g1 g2 x y hps hp e =>
      cases hps with
      | start =>
        have he := (accepted_stone e).1
        have hr := h.reach.choose_spec.2
        have h1 := (C09_play_local hr hp he).of_ok (C13_accepted_is_play e) _ hp
        rw [hsu] at h1
        have hr' : Reach dbg n _ g' := .play hr hp he (C13_accepted_is_play e)
        have h2 := hs _ hp
        rw [he, hr'.inv.getColor_view hp, h1] at h2
        rw [show playLocal n (!true) g.goban.view (x, y) g.turn (x, y) = some g.turn from stands_after] at h2
        cases h2
      | @play ps g3 _ x' y' hps hp' e' =>
        cases hps with
        | start =>
          obtain ⟨_, hl⟩ := Stones.legal (.play (.play .start hp' e') hp e) h
          exact absurd (hs.sameOn h.reach.choose_spec.2 hl.reach.choose_spec.2) (C41_no_two_ply_repetition h hk hsu hp' hp e' e)
        | play => simp only [List.length_cons]; omega
  obtain ⟨b, w, h1, h2, h4, h5⟩ := hps.plays
  refine ⟨h3, b, w, h1, h2, ?_, ?_, ?_⟩
  all_goals by_cases ht : g'.turn = g.turn
  all_goals first | have h4 := h4 ht | have h5 := h5 ht
  all_goals first | omega | (split at h5 <;> omega) | (intro h; first | omega | exact absurd h ht)

/-- **C121**, three stones are enough: on 3 × 3 under the Japanese rule Black lets two stones be taken and takes the stone back. The position is
as before, with the other player to move; one white and two black stones are gone. -/
theorem C121_example : ∃ g g', Legal true 3 4 g ∧ g.rule = JAPANESE ∧ Stones true 3 g [(1, 0), (0, 0), (2, 0)] g' ∧ SamePosition 3 g g' ∧
    Plays true 3 g 2 1 g' ∧ g'.prisoners = (1, 2) := by
  obtain ⟨g, hl, hg⟩ : ∃ g, Legal true 3 4 g ∧ okAnd (do
      let r1 ← g.tryPlay true (.play 2 0)
      let r2 ← r1.2.tryPlay true (.play 0 0)
      let r3 ← r2.2.tryPlay true (.play 1 0)
      .ok (r1, r2, r3)) (fun r => decide (r.1.1 = none ∧ r.2.1.1 = none ∧ r.2.2.1 = none ∧ r.2.2.2.prisoners = (1, 2)) && decide (g.rule = JAPANESE ∧
        g.turn = .black) && (List.range 3).all (fun x => (List.range 3).all (fun y => decide (r.2.2.2.goban.view (x, y) = g.goban.view (x, y))))) = true :=
    mkGame_exists (rule := JAPANESE) (l := [.try_ (.play 0 1), .try_ (.play 2 1), .try_ (.play 1 0), .try_ (.play 1 1)]) (by decide)
      (by decide +kernel)
  obtain ⟨⟨⟨a1, g1⟩, ⟨a2, g2⟩, ⟨a3, g3⟩⟩, e, h⟩ := okAnd_iff.1 hg
  obtain ⟨x1, e1, e⟩ := bind_eq_ok e
  obtain ⟨x2, e2, e⟩ := bind_eq_ok e
  obtain ⟨x3, e3, e⟩ := bind_eq_ok e
  cases e
  simp only [Bool.and_eq_true, decide_eq_true_eq, List.all_eq_true, List.mem_range] at h
  obtain ⟨⟨⟨rfl, rfl, rfl, h4⟩, h5, h6⟩, h7⟩ := h
  have hst : Stones true 3 g [(1, 0), (0, 0), (2, 0)] g3 :=
    .play (.play (.play .start (by decide) e1) (by decide) e2) (by decide) e3
  refine ⟨g, g3, hl, h5, hst, fun p hp => ?_, ?_, h4⟩
  · obtain ⟨_, hl'⟩ := hst.legal hl
    rw [hl.reach.choose_spec.2.inv.getColor_view hp, hl'.reach.choose_spec.2.inv.getColor_view hp]
    exact congrArg _ (h7 p.1 hp.1 p.2 hp.2)
  obtain ⟨b, w, hp, h1, h2, h3⟩ := hst.plays
  have t1 := (C16_play (C13_accepted_is_play e1)).1
  have t2 := (C16_play (C13_accepted_is_play e2)).1
  have t3 := (C16_play (C13_accepted_is_play e3)).1
  have ht : g3.turn ≠ g.turn := by rw [t3, t2, t1, h6]; decide
  have h3 := h3 ht
  rw [if_pos h6] at h3
  simp only [List.length_cons, List.length_nil] at h1
  obtain rfl : w = 1 := by omega
  obtain rfl : b = 2 := by omega
  exact hp

end Model
