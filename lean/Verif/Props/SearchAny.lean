import Verif.Props.Search
import Verif.Props.Lockstep
import Verif.Props.Combs
import Verif.Props.Record
/-!
# C91 and C99 without a bound on the length of the game
-/

namespace Model
open Spec (OnBoard)

variable {dbg : Bool} {n : Dim} {m : Nat} {g : Game}

/-- A point the search may try, in games of any length: on the board, not an own eye, and `try_play` accepts it or has no room for the
stone. -/
def Game.Open (dbg : Bool) (n : Dim) (g : Game) (p : Coord) : Prop :=
  OnBoard n p ∧ ¬ Spec.Eye n g.goban.view g.turn p ∧ (g.Accepts dbg p ∨ g.tryPlay dbg (.play p.1 p.2) = panic)

theorem open_iff (h : Reach dbg n m g) (hps : g.passes ≠ 2) {ps : List Coord}
    (e : g.legalsBy dbg { g.rule.flagIllegal with fillEye := true } = .ok ps) {p : Coord} (hw : p.1 < n.w) :
    p ∈ ps ↔ g.Open dbg n p := by
  rw [(C91_legals_by h _).of_ok e, List.mem_filter, mem_scan h.inv.good, decide_eq_true_eq]
  constructor
  · rintro ⟨⟨hp, _⟩, he, hc⟩
    obtain ⟨hc, hey⟩ := (checkPointBy_fillEye h hp he _).1 hc
    refine ⟨hp, hey, ?_⟩
    unfold Game.Accepts
    rw [tryPlay_empty h hps hp he, hc, ok_bind]
    rcases play_room (dbg := dbg) h.inv h.histories (x := p.1) (y := p.2) hp he with ⟨g', e', _⟩ | ⟨e', _⟩
    · exact Or.inl ⟨g', by rw [e']; rfl⟩
    · exact Or.inr (by rw [e']; rfl)
  · rintro ⟨hp, hey, ha⟩
    have he : g.goban.getColor p = .ok none := by
      by_contra hne
      have hv : g.goban.view p ≠ none := fun hv => hne ((getColor_none h.inv hp).2 hv)
      unfold Game.Accepts at ha
      obtain ⟨x, y⟩ := p
      rw [h.tryPlay_play hp, if_neg hps, if_pos hv] at ha
      rcases ha with ⟨_, e⟩ | e <;> cases e
    refine ⟨⟨hp, hw⟩, he, ?_⟩
    obtain ⟨k1, _⟩ := legals_panics h { g.rule.flagIllegal with fillEye := true }
    unfold Game.Accepts at ha
    rw [tryPlay_empty h hps hp he] at ha
    rcases (checkPointBy_stuck (dbg := dbg) h.inv h.histories hp g.rule.flagIllegal).1 with ⟨o, e1⟩ | e1
    · rw [e1, ok_bind] at ha
      cases o with
      | none => exact (checkPointBy_fillEye h hp he _).2 ⟨e1, hey⟩
      | some x => rcases ha with ⟨_, e⟩ | e <;> cases e
    · have e2 : g.checkPointBy dbg p { g.rule.flagIllegal with fillEye := true } = panic := by
        rw [← e1]
        obtain ⟨bs, f1⟩ := checkSuicide_total (dbg := dbg) (c := g.turn) h.inv hp
        obtain ⟨bk, f2, _⟩ := checkKo_ok (dbg := dbg) (c := g.turn) h.inv hp ((getColor_none h.inv hp).1 he)
        obtain ⟨be, f3, hy⟩ := checkEye_ok (dbg := dbg) (c := g.turn) h.inv hp
        have : be = false := by
          cases be with
          | false => rfl
          | true => exact absurd (hy.1 rfl) hey
        subst this
        rw [checkPointBy_eq he f1 f2 f3, checkPointBy_eq he f1 f2 f3]
        simp
      rw [k1.2 ⟨p, hp, hw, he, e2⟩] at e
      cases e

/-- **C91**, `legals_moves` however long the game: unless the game is paused it lists the points of the first `w` rows that are no own
eyes and that `try_play` does not refuse, that is, which it accepts or for whose stone the group table has no room; if there is none, a
pass while the game is not over. If it panics itself, then so does `try_play` at one of the points. -/
theorem C91_moves_any_length (h : Reach dbg n m g) (hps : g.passes ≠ 2) :
    ((∃ l, g.legalsMoves dbg = .ok l) ∨ g.legalsMoves dbg = panic) ∧
    (∀ l, g.legalsMoves dbg = .ok l → (∀ x y, Move.play x y ∈ l ↔ x < n.w ∧ g.Open dbg n (x, y)) ∧ (∀ c, Move.resign c ∉ l) ∧
      (Move.pass ∈ l ↔ (∀ p, p.1 < n.w → ¬ g.Open dbg n p) ∧ g.isOver = false)) ∧
    (g.legalsMoves dbg = panic → g.rule.flagIllegal.superko = true ∧ ∃ p, OnBoard n p ∧ g.tryPlay dbg (.play p.1 p.2) = panic) := by
  obtain ⟨k1, k2⟩ := legals_panics h { g.rule.flagIllegal with fillEye := true }
  rcases k2 with ⟨ps, e⟩ | e
  · have hr : ∃ l, g.legalsMoves dbg = .ok l := by
      unfold Game.legalsMoves
      rw [e, ok_bind]
      dsimp only
      split
      · split <;> exact ⟨_, rfl⟩
      · exact ⟨_, rfl⟩
    refine ⟨Or.inl hr, fun l el => ?_, fun ep => ?_⟩
    · have hlt : ∀ p ∈ ps, p.1 < n.w := by
        intro p hp
        rw [(C91_legals_by h _).of_ok e, List.mem_filter, mem_scan h.inv.good] at hp
        exact hp.1.2
      have ho : ∀ p, p ∈ ps ↔ p.1 < n.w ∧ g.Open dbg n p := fun p =>
        ⟨fun hp => ⟨hlt p hp, (open_iff h hps e (hlt p hp)).1 hp⟩, fun hp => (open_iff h hps e hp.1).2 hp.2⟩
      unfold Game.legalsMoves at el
      rw [e, ok_bind] at el
      dsimp only at el
      by_cases h0 : ps = []
      · subst h0
        have hno : ∀ p : Coord, p.1 < n.w → ¬ g.Open dbg n p := fun p hw hp => absurd ((ho p).2 ⟨hw, hp⟩) (by simp)
        rw [if_pos (by simp)] at el
        by_cases hov : g.isOver = true
        · rw [if_pos hov] at el; cases el
          exact ⟨fun x y => ⟨fun h => (by cases h), fun ⟨a, b⟩ => absurd b (hno (x, y) a)⟩, fun c h => (by cases h),
            ⟨fun h => (by cases h), fun ⟨_, h⟩ => (by rw [hov] at h; cases h)⟩⟩
        · rw [if_neg hov] at el; cases el
          exact ⟨fun x y => ⟨fun h => (by simp at h), fun ⟨a, b⟩ => absurd b (hno (x, y) a)⟩, fun c h => (by simp at h),
            ⟨fun _ => ⟨hno, by simpa using hov⟩, fun _ => by simp⟩⟩
      · rw [if_neg (by simpa using h0)] at el; cases el
        refine ⟨fun x y => ?_, fun c h => ?_, ⟨fun h => ?_, fun ⟨h, _⟩ => ?_⟩⟩
        · rw [← ho (x, y)]
          simp
        · simp at h
        · simp at h
        · obtain ⟨p, hp⟩ := List.exists_mem_of_ne_nil _ h0
          exact absurd ((ho p).1 hp).2 (h p ((ho p).1 hp).1)
    · obtain ⟨l, el⟩ := hr
      rw [el] at ep; cases ep
  · have ep : g.legalsMoves dbg = panic := by
      unfold Game.legalsMoves
      rw [e]; rfl
    refine ⟨Or.inr ep, fun l el => (by rw [ep] at el; cases el), fun _ => ?_⟩
    obtain ⟨p, hp, hw, he, e1⟩ := k1.1 e
    obtain ⟨s1, s2, _, _, s5⟩ :=
      (checkPointBy_stuck (dbg := dbg) h.inv h.histories hp { g.rule.flagIllegal with fillEye := true }).2.1.1 e1
    obtain ⟨s5, _⟩ := (checkPointBy_fillEye h hp he { g.rule.flagIllegal with superko := false }).1 s5
    exact ⟨s2, p, hp, (tryPlay_room (dbg := dbg) h.inv h.histories (x := p.1) (y := p.2) hp).1.2 ⟨s1, hps, s5⟩⟩

/-- What is offered in a legal game that is not final, however long it is. -/
theorem Legal.offers_any (h : Legal dbg n m g) (hf : g.traitFinal = false) {ms : List Move} (e : g.legalsMoves dbg = .ok ms) :
    ms ≠ [] ∧ ∀ mv ∈ ms, mv.OnBoard n ∧ ((∃ g', g.traitMove dbg mv = .ok g' ∧ g.tryPlay dbg mv = .ok (none, g')) ∨
      (g.traitMove dbg mv = panic ∧ g.tryPlay dbg mv = panic)) := by
  have hps := not_over_passes hf
  obtain ⟨m', _, hr⟩ := h.reach
  obtain ⟨h1, h2, _⟩ := (C91_moves_any_length hr (by omega)).2.1 ms e
  refine ⟨?_, fun mv hmv => ?_⟩
  · rintro rfl
    have := C46_empty_over e
    rw [show g.isOver = false from hf] at this
    cases this
  · cases mv with
    | pass =>
      have e := tryPlay_pass (dbg := dbg) hps
      exact ⟨trivial, Or.inl ⟨_, C13_accepted_is_play e, e⟩⟩
    | play x y =>
      obtain ⟨_, hp, _, ha⟩ := (h1 x y).1 hmv
      refine ⟨hp, ?_⟩
      rcases ha with ⟨g', e⟩ | e
      · exact Or.inl ⟨g', C13_accepted_is_play e, e⟩
      · refine Or.inr ⟨?_, e⟩
        obtain ⟨s1, _, s2⟩ := (tryPlay_room (dbg := dbg) hr.inv hr.histories hp).1.1 e
        exact (play_room (dbg := dbg) hr.inv hr.histories hp (checkPointBy_empty s2)).resolve_left (fun ⟨_, _, h, _⟩ => h s1) |>.1
    | resign c => exact absurd hmv (h2 c)

/-- **C99**, the descent, however long: every game the search meets below a legal game is a legal game. In it, unless it is final,
`legals_moves` offers at least one move or, under super-ko, panics; `do_move` makes an offered move with the game `try_play` would give,
or both panic. Without super-ko `legals_moves` never panics. -/
theorem C99_any_length {l : List Move} {g' : Game} (h : Legal dbg n m g) (hw : Descent dbg g l g') :
    Legal dbg n (m + l.length) g' ∧ (g'.traitFinal = false →
      ((∃ ms, g'.legalsMoves dbg = .ok ms) ∨ (g'.rule.flagIllegal.superko = true ∧ g'.legalsMoves dbg = panic)) ∧
      ∀ ms, g'.legalsMoves dbg = .ok ms → ms ≠ [] ∧
        ∀ mv ∈ ms, (∃ g2, g'.traitMove dbg mv = .ok g2 ∧ g'.tryPlay dbg mv = .ok (none, g2)) ∨
          (g'.traitMove dbg mv = panic ∧ g'.tryPlay dbg mv = panic)) := by
  have key : Legal dbg n (m + l.length) g' := by
    induction hw with
    | start => exact h
    | @step l g1 g2 ms mv _ hf e hmv e2 ih =>
      rw [List.length_append, List.length_singleton]
      obtain ⟨hon, ⟨g3, e3, e4⟩ | ⟨e3, _⟩⟩ := (ih.offers_any hf e).2 mv hmv
      · rw [e2] at e3; cases e3
        exact .tryPlay ih hon e4
      · rw [e2] at e3; cases e3
  refine ⟨key, fun hf => ⟨?_, fun ms e => ?_⟩⟩
  · have hps := not_over_passes hf
    obtain ⟨m', _, hr⟩ := key.reach
    obtain ⟨a1, _, a3⟩ := C91_moves_any_length hr (by omega)
    exact a1.imp id fun e => ⟨(a3 e).1, e⟩
  · obtain ⟨a, b⟩ := key.offers_any hf e
    exact ⟨a, fun mv hmv => (b mv hmv).2⟩

/-- The second case of `C99_any_length` occurs: after accepted calls from a new game on 8 × 8, under a rule without super-ko, the game is
not final and one of the moves offered to the search makes `do_move` panic. -/
theorem C99_offered_and_panics (dbg : Bool) : ∃ m g ms mv, Legal dbg 8 m g ∧ g.traitFinal = false ∧ g.legalsMoves dbg = .ok ms ∧ mv ∈ ms ∧
    g.traitMove dbg mv = panic := by
  obtain ⟨g0, ms, es, g, mv, e0, hms, e, _, hov, hmv, ep⟩ := C72_smaller (n := (8 : Nat)) dbg (by decide) (by decide) (by decide) (by decide)
    { JAPANESE with flagIllegal := { JAPANESE.flagIllegal with fillEye := true } }
  have hf : Fresh dbg 8 0 g0 := .new (by decide) (by rfl) e0
  have hl0 : Legal dbg 8 0 g0 := .fresh hf (by
    intro p hp hne
    obtain ⟨_, hx⟩ | ⟨_, g0', e0', hb⟩ := C53_new_partial (.custom 8 8)
      { JAPANESE with flagIllegal := { JAPANESE.flagIllegal with fillEye := true } } (by decide) (by decide)
    · exact absurd ⟨by decide, by decide⟩ hx
    · rw [show Game.new (.custom 8 8) _ = .ok g0 from e0] at e0'
      obtain rfl : g0 = g0' := by injection e0'
      exact absurd ((getColor_none hf.spec.board.inv.1 hp).1 (hb.empty p hp)) hne)
  have hon : ∀ c ∈ ms.map GOp.try_, GOp.OnBoard 8 c := by
    intro c hc
    obtain ⟨mv, h1, rfl⟩ := List.mem_map.1 hc
    exact hms mv h1
  obtain ⟨m, hl⟩ := Legal.run _ hl0 hon e
  obtain ⟨m', _, hr⟩ := hl.reach
  have hps := not_over_passes hov
  have hrule : g.rule.flagIllegal = ⟨true, false, true, true⟩ := by
    have h0 : g.rule.flagIllegal = g0.rule.flagIllegal := by rw [← (Sgf.run_rule e).1]
    rw [h0]
    have : okAnd (Game.new (.custom 8 8) { JAPANESE with flagIllegal := { JAPANESE.flagIllegal with fillEye := true } })
        (fun g => decide (g.rule.flagIllegal = ⟨true, false, true, true⟩)) = true := by decide +kernel
    obtain ⟨g1, e1, h1⟩ := okAnd_iff.1 this
    rw [show Game.new (.custom 8 8) _ = .ok g0 from e0] at e1
    cases e1
    exact of_decide_eq_true h1
  obtain ⟨a1, a2, a3⟩ := C91_moves_any_length hr (by omega)
  rcases a1 with ⟨l, el⟩ | el
  · cases mv with
    | pass => rw [tryPlay_pass hps] at ep; cases ep
    | resign c =>
      unfold Game.tryPlay at ep
      rw [if_neg (by omega)] at ep
      cases ep
    | play x y =>
      obtain ⟨s1, _, s2⟩ := (tryPlay_room (dbg := dbg) hr.inv hr.histories hmv).1.1 ep
      have he := checkPointBy_empty s2
      refine ⟨m, g, l, .play x y, hl, hov, el, ((a2 l el).1 x y).2 ⟨hmv.1, hmv, ?_, Or.inr ep⟩, ?_⟩
      · exact ((checkPointBy_fillEye hr hmv he { g.rule.flagIllegal with superko := false }).1 (by rw [hrule] at s2 ⊢; exact s2)).2
      · exact ((play_room (dbg := dbg) hr.inv hr.histories hmv he).resolve_left (fun ⟨_, _, h, _⟩ => h s1)).1
  · have := (a3 el).1
    rw [hrule] at this
    cases this

end Model
