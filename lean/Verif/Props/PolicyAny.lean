import Verif.Props.PlayGame
import Verif.Props.PlayoutEnd
/-!
# C75 without a bound on the length of the game
-/

namespace Model
open Spec (OnBoard)

variable {dbg : Bool} {m : Nat} {g : Game} {n : Dim}

/-- A point of the first `w` rows that passes the test of `check_point` and is no own eye. -/
def Game.Listed (dbg : Bool) (n : Dim) (g : Game) (p : Coord) : Prop :=
  OnBoard n p ∧ p.1 < n.w ∧ g.checkPoint dbg p = .ok none ∧ ¬ Spec.Eye n g.goban.view g.turn p

/-- A move of the two policies: such a point, or a pass if there is none. -/
def Game.Wise (dbg : Bool) (n : Dim) (g : Game) (mv : Move) : Prop :=
  (∃ p, g.Listed dbg n p ∧ mv = .play p.1 p.2) ∨ ((∀ p, ¬ g.Listed dbg n p) ∧ mv = .pass)

theorem playRandom_exact (h : Reach dbg n m g) : ∀ (v : List Coord), (∀ p ∈ v, OnBoard n p) → ∃ mv, g.playRandom dbg v = .ok mv ∧
    ((∃ p ∈ v, mv = .play p.1 p.2 ∧ ¬ Spec.Eye n g.goban.view g.turn p) ∨ (mv = .pass ∧ ∀ p ∈ v, Spec.Eye n g.goban.view g.turn p))
  | [], _ => ⟨.pass, rfl, Or.inr ⟨rfl, by simp⟩⟩
  | c :: v, hv => by
    obtain ⟨b, e2, hb⟩ := checkEye_ok (dbg := dbg) (c := g.turn) h.inv (hv c (by simp))
    unfold Game.playRandom
    rw [e2, ok_bind]
    cases b with
    | false => exact ⟨_, rfl, Or.inl ⟨c, by simp, rfl, fun h' => by cases hb.2 h'⟩⟩
    | true =>
      obtain ⟨mv, e, h1⟩ := playRandom_exact h v (fun p hp => hv p (by simp [hp]))
      refine ⟨mv, e, ?_⟩
      rcases h1 with ⟨p, hp, h1⟩ | ⟨h1, h2⟩
      · exact Or.inl ⟨p, by simp [hp], h1⟩
      · refine Or.inr ⟨h1, fun p hp => ?_⟩
        rcases List.mem_cons.1 hp with rfl | hp
        · exact hb.1 rfl
        · exact h2 p hp

theorem fastPlayRandom_returns (h : Reach dbg n m g) : ∀ (v : List Coord), (∀ p ∈ v, OnBoard n p ∧ ∃ o, g.checkPoint dbg p = .ok o) →
    ∃ mv, g.fastPlayRandom dbg v = .ok mv
  | [], _ => ⟨_, rfl⟩
  | c :: v, hv => by
    obtain ⟨hc, o, e1⟩ := hv c (by simp)
    obtain ⟨b, e2, _⟩ := checkEye_ok (dbg := dbg) (c := g.turn) h.inv hc
    obtain ⟨mv, e⟩ := fastPlayRandom_returns h v (fun p hp => hv p (by simp [hp]))
    unfold Game.fastPlayRandom
    rw [e1, ok_bind, e2]
    cases o with
    | some o => exact ⟨mv, by simpa using e⟩
    | none =>
      cases b with
      | true => exact ⟨mv, by simpa [ok_bind] using e⟩
      | false => exact ⟨_, rfl⟩

/-- **C75**, one round, however long the game: if `legals` returns, both policies return for every shuffle, and each of them makes
exactly the moves that pass the test and fill no own eye, or a pass if there is none. -/
theorem C75_round (h : Reach dbg n m g) {ls ps : List Coord} (el : g.legals dbg = .ok ls) (ep : g.pseudoLegals = .ok ps) :
    (∀ v, v.Perm ls → ∃ mv, g.playRandom dbg v = .ok mv) ∧ (∀ v, v.Perm ps → ∃ mv, g.fastPlayRandom dbg v = .ok mv) ∧
    ∀ mv, ((∃ v, v.Perm ls ∧ g.playRandom dbg v = .ok mv) ↔ g.Wise dbg n mv) ∧
      ((∃ v, v.Perm ps ∧ g.fastPlayRandom dbg v = .ok mv) ↔ g.Wise dbg n mv) := by
  have hl := (C91_legals_by h g.rule.flagIllegal).of_ok el
  obtain ⟨hm1, hm2⟩ := pseudoLegals_mem h ep
  have hls : ∀ p, p ∈ ls ↔ (OnBoard n p ∧ p.1 < n.w) ∧ g.checkPoint dbg p = .ok none := by
    intro p
    rw [hl, List.mem_filter, mem_scan h.inv.good, decide_eq_true_eq]
    exact ⟨fun ⟨a, _, c⟩ => ⟨a, c⟩, fun ⟨a, c⟩ => ⟨a, checkPointBy_empty c, c⟩⟩
  have hret : ∀ p ∈ ps, OnBoard n p ∧ ∃ o, g.checkPoint dbg p = .ok o := by
    intro p hp
    have hb := hm1 p hp
    refine ⟨hb.1, (checkPointBy_stuck (dbg := dbg) h.inv h.histories hb.1 g.rule.flagIllegal).1.resolve_right fun e => ?_⟩
    have he := checkPointBy_empty ((checkPointBy_stuck (dbg := dbg) h.inv h.histories hb.1 g.rule.flagIllegal).2.1.1 e).2.2.2.2
    have := (legals_panics h g.rule.flagIllegal).1.2 ⟨p, hb.1, hb.2, he, e⟩
    rw [show g.legalsBy dbg g.rule.flagIllegal = .ok ls from el] at this
    cases this
  have slow : ∀ v, v.Perm ls → ∃ mv, g.playRandom dbg v = .ok mv ∧ g.Wise dbg n mv := by
    intro v hv
    obtain ⟨mv, e, h1⟩ := playRandom_exact h v (fun p hp => ((hls p).1 (hv.mem_iff.1 hp)).1.1)
    refine ⟨mv, e, h1.imp ?_ ?_⟩
    · rintro ⟨p, hp, h1, h2⟩
      obtain ⟨⟨a, b⟩, c⟩ := (hls p).1 (hv.mem_iff.1 hp)
      exact ⟨p, ⟨a, b, c, h2⟩, h1⟩
    · rintro ⟨h1, h2⟩
      exact ⟨fun p ⟨a, b, c, d⟩ => d (h2 p (hv.mem_iff.2 ((hls p).2 ⟨⟨a, b⟩, c⟩))), h1⟩
  have fast : ∀ v, v.Perm ps → ∃ mv, g.fastPlayRandom dbg v = .ok mv ∧ g.Wise dbg n mv := by
    intro v hv
    obtain ⟨mv, e⟩ := fastPlayRandom_returns h v (fun p hp => hret p (hv.mem_iff.1 hp))
    refine ⟨mv, e, (fastPlayRandom_exact h v (fun p hp => (hret p (hv.mem_iff.1 hp)).1) e).imp ?_ ?_⟩
    · rintro ⟨p, hp, h1, h2, h3⟩
      exact ⟨p, ⟨(hm1 p (hv.mem_iff.1 hp)).1, (hm1 p (hv.mem_iff.1 hp)).2, h2, h3⟩, h1⟩
    · rintro ⟨h1, h2⟩
      refine ⟨fun p ⟨a, b, c, d⟩ => ?_, h1⟩
      obtain ⟨_, e'⟩ := h2 p (hv.mem_iff.2 (hm2 p a b (checkPointBy_empty c))) d
      rw [c] at e'; cases e'
  have one : ∀ {mv mv'}, (∀ p, ¬ g.Listed dbg n p) → mv = .pass → g.Wise dbg n mv' → mv' = mv := by
    rintro mv mv' h1 rfl (⟨p, h2, _⟩ | ⟨_, h2⟩)
    · exact absurd h2 (h1 p)
    · exact h2
  refine ⟨fun v hv => (slow v hv).imp fun _ h => h.1, fun v hv => (fast v hv).imp fun _ h => h.1, fun mv => ⟨⟨?_, ?_⟩, ⟨?_, ?_⟩⟩⟩
  · rintro ⟨v, hv, e⟩
    obtain ⟨mv', e', h'⟩ := slow v hv
    rw [e] at e'; cases e'; exact h'
  · rintro (⟨p, hp, rfl⟩ | ⟨h1, h2⟩)
    · refine ⟨p :: ls.erase p, (List.perm_cons_erase ((hls p).2 ⟨⟨hp.1, hp.2.1⟩, hp.2.2.1⟩)).symm, ?_⟩
      obtain ⟨b, e2, hb⟩ := checkEye_ok (dbg := dbg) (c := g.turn) h.inv hp.1
      unfold Game.playRandom
      rw [e2, ok_bind]
      cases b with
      | false => rfl
      | true => exact absurd (hb.1 rfl) hp.2.2.2
    · obtain ⟨mv', e', h'⟩ := slow ls (List.Perm.refl _)
      rw [one h1 h2 h'] at e'
      exact ⟨ls, List.Perm.refl _, e'⟩
  · rintro ⟨v, hv, e⟩
    obtain ⟨mv', e', h'⟩ := fast v hv
    rw [e] at e'; cases e'; exact h'
  · rintro (⟨p, hp, rfl⟩ | ⟨h1, h2⟩)
    · refine ⟨p :: ps.erase p, (List.perm_cons_erase (hm2 p hp.1 hp.2.1 (checkPointBy_empty hp.2.2.1))).symm, ?_⟩
      obtain ⟨b, e2, hb⟩ := checkEye_ok (dbg := dbg) (c := g.turn) h.inv hp.1
      unfold Game.fastPlayRandom
      rw [hp.2.2.1, ok_bind, e2]
      cases b with
      | false => rfl
      | true => exact absurd (hb.1 rfl) hp.2.2.2
    · obtain ⟨mv', e', h'⟩ := fast ps (List.Perm.refl _)
      rw [one h1 h2 h'] at e'
      exact ⟨ps, List.Perm.refl _, e'⟩

theorem legals_returns (h : Reach dbg n m g) (hk : g.rule.flagIllegal.superko = false) : ∃ ls, g.legals dbg = .ok ls := by
  obtain ⟨h1, h2⟩ := legals_panics h g.rule.flagIllegal
  refine h2.resolve_right fun e => ?_
  obtain ⟨p, hp, _, _, e⟩ := h1.1 e
  have := ((checkPointBy_stuck (dbg := dbg) h.inv h.histories hp g.rule.flagIllegal).2.1.1 e).2.1
  rw [hk] at this; cases this

theorem rule_of_round (h : Legal dbg n m g) {g1 : Game} (h1 : ∃ mv, mv.OnBoard n ∧ g.tryPlay dbg mv = .ok (none, g1)) : g1.rule = g.rule := by
  obtain ⟨mv, hmv, e⟩ := h1
  obtain ⟨o, s, m', hm', hps2, hs⟩ := h.sim
  exact ((hs.tryPlay_any mv hmv hps2).of_ok e).1

/-- **C75**, whole games however long: every result that `play_game` can have, fast play-outs can have, be it a game or (without super-ko)
a panic. -/
theorem C75_slow_then_fast (k : Nat) : ∀ {m : Nat} {g : Game} (_ : Legal dbg n m g) {x : M Game}
    (_ : (∃ g', x = .ok g') ∨ g.rule.flagIllegal.superko = false),
    (∃ sh : Nat → List Coord → List Coord, (∀ k l, (sh k l).Perm l) ∧ g.playGame dbg sh k = x) →
      ∃ sh : Nat → List Coord → List Coord, (∀ k l, (sh k l).Perm l) ∧ g.playout dbg sh k = x := by
  induction k with
  | zero => intro m g h x hx; exact id
  | succ k ih =>
    intro m g h x hx
    unfold Game.playGame Game.playout
    cases ho : g.isOver with
    | true => exact id
    | false =>
      obtain ⟨m', hm', hr⟩ := h.reach
      obtain ⟨ps, ep, _⟩ : ∃ ps, g.pseudoLegals = .ok ps ∧ ∀ p ∈ ps, OnBoard n p := getEmptyCoords_any hr.inv
      simp only [Bool.false_eq_true, if_false, ep, ok_bind]
      rintro ⟨sh, hsh, e⟩
      have : ∃ ls, g.legals dbg = .ok ls := by
        rcases hx with ⟨g', rfl⟩ | hk
        · obtain ⟨ls, el, _⟩ := bind_eq_ok e
          exact ⟨ls, el⟩
        · exact legals_returns hr hk
      obtain ⟨ls, el⟩ := this
      obtain ⟨p1, _, p3⟩ := C75_round hr el ep
      rw [el, ok_bind] at e
      obtain ⟨mv, e1⟩ := p1 _ (hsh k _)
      rw [e1, ok_bind] at e
      obtain ⟨v, hv, ev⟩ := (p3 mv).2.2 ((p3 mv).1.1 ⟨_, hsh k _, e1⟩)
      cases e2 : g.play dbg mv with
      | error er =>
        obtain ⟨sh2, hsh2, e4, _⟩ := shuffle_extend hsh k hv
        refine ⟨sh2, hsh2, ?_⟩
        unfold Game.playoutRound
        rw [e4, ev, ok_bind, e2]
        rw [e2] at e
        exact e
      | ok g1 =>
        rw [e2, ok_bind] at e
        obtain ⟨hmv, hl1, _⟩ := (playoutRound_safe h ho ep hv).of_ok (show g.playoutRound dbg v = .ok g1 by
          unfold Game.playoutRound; rw [ev, ok_bind, e2])
        obtain ⟨sh1, hsh1, e3⟩ := ih hl1 (hx.imp_right fun hk => by rw [rule_of_round h hmv]; exact hk) ⟨sh, hsh, e⟩
        obtain ⟨sh2, hsh2, e4, e5⟩ := shuffle_extend hsh1 k hv
        refine ⟨sh2, hsh2, ?_⟩
        unfold Game.playoutRound
        rw [e4, ev, ok_bind, e2, ok_bind, playout_congr k g1 e5]
        exact e3

/-- **C75**, whole games however long, without super-ko: `play_game` and the fast play-out have the same results, panics included. -/
theorem C75_any_length (k : Nat) : ∀ {m : Nat} {g : Game} (_ : Legal dbg n m g) (_ : g.rule.flagIllegal.superko = false) (x : M Game),
    (∃ sh : Nat → List Coord → List Coord, (∀ k l, (sh k l).Perm l) ∧ g.playGame dbg sh k = x) ↔
      ∃ sh : Nat → List Coord → List Coord, (∀ k l, (sh k l).Perm l) ∧ g.playout dbg sh k = x := by
  induction k with
  | zero => intro m g h hk x; exact Iff.rfl
  | succ k ih =>
    intro m g h hk x
    refine ⟨C75_slow_then_fast (k + 1) h (Or.inr hk), ?_⟩
    unfold Game.playGame Game.playout
    cases ho : g.isOver with
    | true => exact id
    | false =>
      obtain ⟨m', hm', hr⟩ := h.reach
      obtain ⟨ps, ep, _⟩ : ∃ ps, g.pseudoLegals = .ok ps ∧ ∀ p ∈ ps, OnBoard n p := getEmptyCoords_any hr.inv
      obtain ⟨ls, el⟩ := legals_returns hr hk
      obtain ⟨_, p2, p3⟩ := C75_round hr el ep
      simp only [Bool.false_eq_true, if_false, ep, el, ok_bind]
      rintro ⟨sh, hsh, e⟩
      unfold Game.playoutRound at e
      obtain ⟨mv, e1⟩ := p2 _ (hsh k _)
      obtain ⟨v, hv, ev⟩ := (p3 mv).1.2 ((p3 mv).2.1 ⟨_, hsh k _, e1⟩)
      rw [e1, ok_bind] at e
      cases e2 : g.play dbg mv with
      | error er =>
        obtain ⟨sh2, hsh2, e4, _⟩ := shuffle_extend hsh k hv
        refine ⟨sh2, hsh2, ?_⟩
        rw [e4, ev, ok_bind, e2]
        rw [e2] at e
        exact e
      | ok g1 =>
        rw [e2, ok_bind] at e
        obtain ⟨hmv, hl1, _⟩ := (playoutRound_safe h ho ep (hsh k _)).of_ok (show g.playoutRound dbg (sh k ps) = .ok g1 by
          unfold Game.playoutRound; rw [e1, ok_bind, e2])
        obtain ⟨sh1, hsh1, e3⟩ := (ih hl1 (by rw [rule_of_round h hmv]; exact hk) x).2 ⟨sh, hsh, e⟩
        obtain ⟨sh2, hsh2, e4, e5⟩ := shuffle_extend hsh1 k hv
        refine ⟨sh2, hsh2, ?_⟩
        rw [e4, ev, ok_bind, e2, ok_bind, playGame_congr k g1 e5]
        exact e3

/-- Non-vacuity: under the Japanese rule, after three moves on the 3 × 3 board, the loops end in the same game with other shuffles. -/
example : ∃ g, Legal true 3 3 g ∧ (decide (g.rule.flagIllegal.superko = false) &&
    (match g.playGame true (fun _ l => l.reverse) 60, g.playout true (fun _ l => l.reverse) 60 with
    | .ok a, .ok b => decide (a.isOver = true ∧ a = b ∧ a.prisoners ≠ (0, 0))
    | _, _ => false)) = true :=
  mkGame_exists (rule := JAPANESE) (l := [.try_ (.play 1 1), .try_ (.play 0 1), .try_ (.play 2 1)]) (by decide) (by decide +kernel)

end Model
