import Verif.Props.Ko
import Verif.Proofs.Seen
import Verif.Props.Strategy
import Verif.Props.Area
/-!
# Ko forbids one point, for one turn: C114
-/

namespace Model
open Spec (OnBoard Adj Linked HasLiberty NoDead place SameOn Pos Suicide State of)

variable {dbg : Bool} {n : Dim} {m : Nat} {g g' : Game}

/-- `check_ko`, asked about an empty point of the board for the side to move, says true. -/
def KoBanned (dbg : Bool) (n : Dim) (g : Game) (p : Coord) : Prop :=
  OnBoard n p ∧ g.goban.getColor p = .ok none ∧ g.checkKo dbg { coord := p, color := g.turn } = .ok true

theorem Sim.koBanned {o : Option EndGame} {s : State} (h : Sim dbg n m o g s) {p : Coord} :
    KoBanned dbg n g p ↔ OnBoard n p ∧ s.pos p = none ∧ Spec.KoSeen n s p := by
  unfold KoBanned
  refine and_congr_right fun hp => ?_
  have h1 : g.goban.getColor p = .ok none ↔ s.pos p = none := by rw [getColor_none h.inv hp, h.pos p hp]
  rw [h1]
  refine and_congr_right fun he => ?_
  obtain ⟨b, e, hb⟩ := h.checkKo_seen hp he
  rw [e, ← hb]
  exact ⟨fun h => by cases h; rfl, fun h => by rw [h]⟩

/-- **C114**: in any one position ko forbids at most one point. -/
theorem C114_one (h : Legal dbg n m g) {p q : Coord} (hp : KoBanned dbg n g p) (hq : KoBanned dbg n g q) : p = q := by
  obtain ⟨o, s, m', _, _, hs⟩ := h.sim
  obtain ⟨p1, _, ⟨b, hb, kb⟩, _⟩ := hs.koBanned.1 hp
  obtain ⟨q1, _, ⟨b', hb', kb'⟩, _⟩ := hs.koBanned.1 hq
  rw [hb] at hb'
  cases hb'
  exact (kb' p p1).1 ((kb p p1).2 rfl)

/-- **C114**: without super-ko, `try_play` answers `Ko` for at most one point of the board. -/
theorem C114_refused (h : Legal dbg n m g) (hf : g.rule.flagIllegal.superko = false) {x y x' y' : Nat} {g1 g2 : Game}
    (hp : OnBoard n (x, y)) (hq : OnBoard n (x', y'))
    (e1 : g.tryPlay dbg (.play x y) = .ok (some .ko, g1)) (e2 : g.tryPlay dbg (.play x' y') = .ok (some .ko, g2)) :
    (x, y) = (x', y') := by
  obtain ⟨o, s, m', _, hps, hs⟩ := h.sim
  have key : ∀ {a b : Nat} {g3 : Game}, OnBoard n (a, b) → g.tryPlay dbg (.play a b) = .ok (some .ko, g3) →
      KoBanned dbg n g (a, b) := by
    intro a b g3 hab e
    have ha : Spec.answerSeen n g.rule.flagIllegal.forbidden s (.play (a, b)) = .ko :=
      ((hs.tryPlay_answer (.play a b) hab hps).of_ok e).symm
    rw [answerSeen_play] at ha
    have hsk : ¬ (g.rule.flagIllegal.superko = true ∧ Spec.SuperKoSeen n (!g.rule.flagIllegal.suicide) s (a, b)) := by
      rw [hf]; rintro ⟨h, _⟩; cases h
    by_cases h1 : s.passes = 2
    · rw [if_pos h1] at ha; cases ha
    rw [if_neg h1] at ha
    by_cases h2 : s.pos (a, b) ≠ none
    · rw [if_pos h2] at ha; cases ha
    rw [if_neg h2] at ha
    refine hs.koBanned.2 ⟨hab, Classical.not_not.1 h2, ?_⟩
    unfold refusalSeen at ha
    by_cases h3 : g.rule.flagIllegal.suicide = true ∧ Suicide n s.pos (a, b) s.turn
    · rw [if_pos h3] at ha; cases ha
    rw [if_neg h3] at ha
    by_cases h4 : g.rule.flagIllegal.ko = true ∧ Spec.KoSeen n s (a, b)
    · exact h4.2
    rw [if_neg h4] at ha
    by_cases h5 : g.rule.flagIllegal.fillEye = true ∧ Spec.Eye n s.pos s.turn (a, b)
    · rw [if_pos h5] at ha; cases ha
    rw [if_neg h5, if_neg hsk] at ha
    cases ha
  exact C114_one h (key hp e1) (key hq e2)

/-- **C114**: the ban lasts one turn. Whatever stone or pass is accepted next, the point is not forbidden by ko after it. -/
theorem C114_one_turn (h : Legal dbg n m g) {p : Coord} (hp : KoBanned dbg n g p) {mv : Move} (hmv : mv.OnBoard n)
    (hm : ∀ c, mv ≠ .resign c) (e : g.tryPlay dbg mv = .ok (none, g')) : ¬ KoBanned dbg n g' p := by
  obtain ⟨o, s, m', _, hps, hs⟩ := h.sim
  obtain ⟨p1, he, _⟩ := hs.koBanned.1 hp
  obtain ⟨_, _, hok⟩ := (hs.tryPlay_any mv hmv hps).of_ok e
  obtain ⟨_, _, m2, _, hs2⟩ := hok rfl
  intro hb
  obtain ⟨_, _, ⟨b, hb, kb⟩, _⟩ := hs2.koBanned.1 hb
  cases mv with
  | resign c => exact hm c rfl
  | pass => cases hb
  | play x y =>
    cases hb
    have := ((kb p p1).2 rfl).1
    rw [he] at this
    cases this

/-- **C114**: there is a ban only while the last stone is fresh: the position and the turn are those right after an accepted
play, in which the point was forbidden too (in between only `set_komi`, `resume`, refused calls and resignations). -/
theorem C114_origin (h : Legal dbg n m g) {p : Coord} (hp : KoBanned dbg n g p) :
    ∃ (k : Nat) (g0 g1 : Game) (x y : Nat), Legal dbg n k g0 ∧ OnBoard n (x, y) ∧ g0.tryPlay dbg (.play x y) = .ok (none, g1) ∧
      g1.goban = g.goban ∧ g1.turn = g.turn ∧ KoBanned dbg n g1 p := by
  induction h with
  | fresh hf _ =>
    obtain ⟨_, _, h3⟩ := hp
    unfold Game.checkKo at h3
    rw [hf.spec.ko] at h3
    cases h3
  | @tryPlay m g mv er g' h hmv e ih =>
    cases er with
    | some er =>
      have : g' = g := by
        obtain ⟨o, s, m', _, hps, hs⟩ := h.sim
        exact ((hs.tryPlay_any mv hmv hps).of_ok e).2.1 (fun h => by cases h)
      rw [this] at hp ⊢
      exact ih hp
    | none =>
      cases mv with
      | play x y => exact ⟨_, g, g', x, y, h, hmv, e, rfl, rfl, hp⟩
      | pass =>
        have := hp.2.2
        rw [C14_no_ko_after_pass e] at this
        cases this
      | resign c =>
        have e := C13_accepted_is_play e
        cases e
        exact ih hp
  | resume _ ih => exact ih hp
  | setKomi _ ih => exact ih hp

/-- **C114**: there is a ban only right after a stone that captured exactly one stone, which stood on the forbidden point. -/
theorem C114_after {g0 : Game} (h : Legal dbg n m g0) {x y : Nat} (hxy : OnBoard n (x, y))
    (e : g0.tryPlay dbg (.play x y) = .ok (none, g)) {p : Coord} (hp : KoBanned dbg n g p) :
    g0.goban.getColor p = .ok (some g.turn) ∧
      ∀ q, OnBoard n q → g0.goban.getColor q = .ok (some g.turn) → q ≠ p → g.goban.getColor q = .ok (some g.turn) := by
  obtain ⟨o, s, m', _, hps, hs⟩ := h.sim
  obtain ⟨_, _, hok⟩ := (hs.tryPlay_any (.play x y) hxy hps).of_ok e
  obtain ⟨_, _, m2, _, hs2⟩ := hok rfl
  obtain ⟨p1, _, ⟨b, hb, kb⟩, _⟩ := hs2.koBanned.1 hp
  cases hb
  have ht : g.turn = s.turn.opp := hs2.turn
  refine ⟨?_, fun q hq hc hne => ?_⟩
  · rw [hs.inv.getColor_view p1, hs.pos p p1, ht]
    exact congrArg _ ((kb p p1).2 rfl).1
  · rw [hs.inv.getColor_view hq, hs.pos q hq, ht] at hc
    rw [hs2.inv.getColor_view hq, hs2.pos q hq, ht]
    have hc : s.pos q = some s.turn.opp := by injection hc
    have he : s.pos (x, y) = none := by
      rw [← hs.pos _ hxy]
      exact (getColor_none hs.inv hxy).1 (accepted_stone e).1
    have hqxy : q ≠ (x, y) := fun h => by rw [h, he] at hc; cases hc
    have hk := fun h => hne ((kb q hq).1 ⟨hc, h⟩)
    rcases play_sub (n := n) (pos := s.pos) (s := !g0.rule.flagIllegal.suicide) (p := (x, y)) (c := s.turn) q with h1 | h1
    · exact absurd h1 hk
    · refine congrArg _ (Eq.trans h1 ?_)
      rw [place_ne hqxy]
      exact hc

/-- **C114**: playing on the forbidden point (with the unchecked `play`) takes exactly the stone just put: the point where it
stood is empty, every other stone of its colour stays, and the player has one prisoner more. -/
theorem C114_recapture {g0 g2 : Game} (h : Legal dbg n m g0) {x y : Nat} (hxy : OnBoard n (x, y))
    (e : g0.tryPlay dbg (.play x y) = .ok (none, g)) {a b : Nat} (hp : KoBanned dbg n g (a, b))
    (hns : ¬ Suicide n g.goban.view (a, b) g.turn) (e2 : g.play dbg (.play a b) = .ok g2) :
    g2.goban.getColor (x, y) = .ok none ∧
      (∀ q, OnBoard n q → g.goban.getColor q = .ok (some g.turn.opp) → q ≠ (x, y) →
        g2.goban.getColor q = .ok (some g.turn.opp)) ∧
      of g.turn g2.prisoners = of g.turn g.prisoners + 1 := by
  obtain ⟨o, s, m', _, hps, hs⟩ := h.sim
  obtain ⟨_, _, hok⟩ := (hs.tryPlay_any (.play x y) hxy hps).of_ok e
  obtain ⟨_, _, m2, _, hs2⟩ := hok rfl
  obtain ⟨p1, p2, p3⟩ := hp
  obtain ⟨_, _, ⟨b0, hb, kb⟩, _⟩ := hs2.koBanned.1 ⟨p1, p2, p3⟩
  cases hb
  obtain ⟨r, er, hr⟩ := C14_check_ko h hxy e p1 p2 hns
  rw [p3] at er
  cases er
  have hback := hr.1 rfl
  obtain ⟨m3, _, hreach⟩ := (Legal.tryPlay (mv := .play x y) h hxy e).reach
  have hv2 : SameOn n g2.goban.view g0.goban.view :=
    SameOn.trans ((C09_play hreach hs2.noDead' p1 p2).of_ok e2) hback
  have hI2 : Inv n g2.goban := (Reach.play hreach p1 p2 e2).inv
  have ht : g.turn = s.turn.opp := hs2.turn
  have hto : g.turn.opp = s.turn := by rw [ht, Color.opp_opp]
  have he : g0.goban.view (x, y) = none := (getColor_none hs.inv hxy).1 (accepted_stone e).1
  have hse : s.pos (x, y) = none := by rw [← hs.pos _ hxy]; exact he
  have hsub : ∀ q, OnBoard n q → g.goban.view q = some g.turn.opp → q ≠ (x, y) → g0.goban.view q = some g.turn.opp := by
    intro q hq hc hne
    rw [hs2.pos q hq] at hc
    rcases play_sub (n := n) (pos := s.pos) (s := !g0.rule.flagIllegal.suicide) (p := (x, y)) (c := s.turn) q with h1 | h1
    · rw [show (Spec.apply n g0.rule.flagIllegal.forbidden s (Move.play x y).call).pos q = none from h1] at hc
      cases hc
    · rw [show (Spec.apply n g0.rule.flagIllegal.forbidden s (Move.play x y).call).pos q = _ from h1, place_ne hne] at hc
      rw [hs.pos q hq]
      exact hc
  have hcap : Spec.Captures n s.pos (x, y) s.turn := by
    obtain ⟨k1, k2⟩ := (kb (a, b) p1).2 rfl
    refine ⟨(a, b), p1, k1, ?_⟩
    cases hk : Spec.removeDead n (place s.pos (x, y) s.turn) s.turn.opp (a, b) with
    | none => rfl
    | some d =>
      exfalso
      have hd : d = s.turn.opp := by
        rcases removeDead_sub (n := n) (pos := place s.pos (x, y) s.turn) (c := s.turn.opp) (a, b) with h1 | h1
        · rw [hk] at h1; cases h1
        · rw [hk, place_ne (fun h => by rw [h, hse] at k1; cases k1), k1] at h1
          injection h1
      rw [hd] at hk
      have k3 : Spec.play n (!g0.rule.flagIllegal.suicide) s.pos (x, y) s.turn (a, b) = none := k2
      unfold Spec.play at k3
      cases hf : (!g0.rule.flagIllegal.suicide) with
      | false => rw [hf] at k3; exact absurd (hk.symm.trans k3) (fun h => by cases h)
      | true =>
        rw [hf, if_pos rfl, removeDead_other hk (Color.opp_ne _)] at k3
        cases k3
  have hstand : g.goban.view (x, y) = some g.turn.opp := by
    rw [hs2.pos _ hxy, hto]
    exact (play_capture _ hs.noDead hxy hse hcap _ hxy).trans after_self
  have hne : (x, y) ≠ (a, b) := fun h => by
    have := (getColor_none hs2.inv p1).1 p2
    rw [← h, hstand] at this
    cases this
  have hvan : Spec.vanished n (place g.goban.view (a, b) g.turn) g2.goban.view g.turn.opp = 1 := by
    rw [← filter_single (points_nodup n) ((mem_points (n := n)).2 hxy)]
    unfold Spec.vanished
    congr 1
    refine List.filter_congr fun q hq => decide_eq_decide.2 ?_
    have hq := (mem_points (n := n)).1 hq
    rw [hv2 q hq]
    constructor
    · rintro ⟨h1, h2⟩
      apply Classical.byContradiction
      intro hn
      have hqp : q ≠ (a, b) := fun h => by
        rw [h, place_self] at h1
        exact Color.ne_opp g.turn (Option.some.inj h1)
      rw [place_ne hqp] at h1
      rw [hsub q hq h1 hn] at h2
      cases h2
    · rintro rfl
      rw [place_ne hne]
      exact ⟨hstand, he⟩
  refine ⟨?_, ?_, ?_⟩
  · rw [hI2.getColor_view hxy, hv2 _ hxy, he]
  · intro q hq hc hn
    rw [hs2.inv.getColor_view hq] at hc
    rw [hI2.getColor_view hq, hv2 q hq, hsub q hq (by injection hc) hn]
  · obtain ⟨h1, h2⟩ := (C11_play hreach p1 p2).of_ok e2
    cases hc : g.turn with
    | black => rw [hc] at hvan h1; rw [show of Color.black g2.prisoners = g2.prisoners.1 from rfl, h1]; exact congrArg _ hvan
    | white => rw [hc] at hvan h2; rw [show of Color.white g2.prisoners = g2.prisoners.2 from rfl, h2]; exact congrArg _ hvan

/-- A ko: white may not retake at (1,1); the unchecked `play` there takes the black stone at (1,2); after a play and an answer
elsewhere white may retake. -/
example : ∃ g, Legal true 4 9 g ∧ (g.checkKo true { coord := (1, 1), color := g.turn } = .ok true ∧
    okAnd (g.goban.getColor (1, 1)) (fun c => decide (c = none)) = true ∧
    okAnd (g.tryPlay true (.play 1 1)) (fun r => decide (r.1 = some .ko)) = true ∧
    okAnd (g.play true (.play 1 1)) (fun g2 => decide (g2.goban.getColor (1, 2) = .ok none) &&
      decide (g2.prisoners.2 = g.prisoners.2 + 1)) = true ∧
    okAnd (do
      let r ← g.tryPlay true (.play 3 0)
      let r ← r.2.tryPlay true (.play 0 0)
      let r' ← r.2.tryPlay true (.play 1 1)
      .ok (r.1, r'.1)) (fun r => decide (r = (none, none))) = true : Bool) = true :=
  mkGame_exists (rule := JAPANESE) (l := exKo) (by decide) (by decide +kernel)

end Model
