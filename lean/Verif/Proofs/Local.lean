import Verif.Spec.Acts
import Verif.Proofs.Seen
/-!
# The game refines the abstract game of `Spec.Local`
-/

namespace Model
open Spec (OnBoard Adj Linked HasLiberty NoDead place SameOn Pos State Call Answer Forbidden captureAround playLocal
  removeGroupIfDead)

section
variable {n : Dim} {pos : Pos} {p : Coord} {c : Color}

theorem captureAround_sub {pos : Pos} {p : Coord} {c : Color} (q : Coord) :
    captureAround n pos p c q = none ∨ captureAround n pos p c q = pos q := by
  unfold captureAround
  split
  · exact Or.inl rfl
  · exact Or.inr rfl

theorem removeGroupIfDead_sub {pos : Pos} {p : Coord} (q : Coord) :
    removeGroupIfDead n pos p q = none ∨ removeGroupIfDead n pos p q = pos q := by
  unfold removeGroupIfDead
  split
  · exact Or.inl rfl
  · exact Or.inr rfl

theorem local_sub {s : Bool} (q : Coord) : playLocal n s pos p c q = none ∨ playLocal n s pos p c q = place pos p c q := by
  unfold playLocal
  cases s
  · exact captureAround_sub q
  · rcases removeGroupIfDead_sub (n := n) (pos := captureAround n (place pos p c) p c.opp) (p := p) q with h | h
    · exact Or.inl h
    · rcases captureAround_sub (n := n) (pos := place pos p c) (p := p) (c := c.opp) q with h' | h'
      · exact Or.inl (h.trans h')
      · exact Or.inr (h.trans h')

theorem playLocal_keep {q : Coord} (h : place pos p c q ≠ some c.opp) : playLocal n false pos p c q = place pos p c q := by
  show captureAround n _ p c.opp q = _
  unfold captureAround
  rw [if_neg (fun h' => h h'.1)]

theorem playLocal_self : playLocal n false pos p c p = some c := by
  rw [playLocal_keep (by rw [place_self]; exact some_ne_opp), place_self]

/-- An opposing stone disappears iff its group touches `p` and has no liberty except perhaps `p`. -/
theorem playLocal_none {q : Coord} (he : pos p = none) (hv : pos q = some c.opp) :
    playLocal n false pos p c q = none ↔
      (∃ s, Adj p s ∧ OnBoard n s ∧ pos s = some c.opp ∧ Linked n pos s q) ∧ ∀ r, LibAt n pos q r → r = p := by
  have hqp : q ≠ p := by rintro rfl; rw [he] at hv; cases hv
  have hq : place pos p c q = some c.opp := by rw [place_ne hqp, hv]
  have hl := hasLiberty_place_opp (n := n) hqp he hv
  have hlib : (¬ HasLiberty n (place pos p c) q) ↔ ∀ r, LibAt n pos q r → r = p := by
    rw [hl]
    constructor
    · intro h r hr; apply Classical.byContradiction; intro hne; exact h ⟨r, hr, hne⟩
    · rintro h ⟨r, hr, hne⟩; exact hne (h r hr)
  have hs : (∃ s, Adj p s ∧ OnBoard n s ∧ place pos p c s = some c.opp ∧ Linked n (place pos p c) s q) ↔
      ∃ s, Adj p s ∧ OnBoard n s ∧ pos s = some c.opp ∧ Linked n pos s q := by
    constructor
    · rintro ⟨s, a, b, d, e⟩
      have hsp : s ≠ p := by rintro rfl; exact adj_irrefl a
      exact ⟨s, a, b, by rw [← place_ne (pos := pos) (c := c) hsp]; exact d, linked_place_opp d e⟩
    · rintro ⟨s, a, b, d, e⟩
      have hsp : s ≠ p := by rintro rfl; exact adj_irrefl a
      exact ⟨s, a, b, by rw [place_ne hsp]; exact d, linked_place he (by rw [d]; simp) e⟩
  show captureAround n (place pos p c) p c.opp q = none ↔ _
  unfold captureAround
  by_cases h : (∃ s, Adj p s ∧ OnBoard n s ∧ pos s = some c.opp ∧ Linked n pos s q) ∧ ∀ r, LibAt n pos q r → r = p
  · rw [if_pos ⟨hq, hlib.2 h.2, hs.2 h.1⟩]; exact ⟨fun _ => h, fun _ => rfl⟩
  · rw [if_neg (fun h' => h ⟨hs.1 h'.2.2, hlib.1 h'.2.1⟩), hq]; simp only [reduceCtorEq, false_iff]; exact h

theorem capturesLocal_iff (he : pos p = none) : Spec.CapturesLocal n pos p c ↔
    ∃ s, Adj p s ∧ OnBoard n s ∧ pos s = some c.opp ∧ ∀ r, LibAt n pos s r → r = p := by
  constructor
  · rintro ⟨q, h1, h2, h3⟩
    obtain ⟨⟨s, a, b, d, e⟩, f⟩ := (playLocal_none he h2).1 h3
    exact ⟨s, a, b, d, fun r hr => f r ((libAt_linked b e).1 hr)⟩
  · rintro ⟨s, a, b, d, e⟩
    exact ⟨s, b, d, (playLocal_none he d).2 ⟨⟨s, a, b, d, .refl _⟩, e⟩⟩

theorem linked_of_local {q : Coord} (h : Linked n (playLocal n false pos p c) p q) : Linked n (place pos p c) p q :=
  linked_of_sub (fun x => local_sub x) (by rw [playLocal_self]; simp) h

theorem linked_local_own {q q' : Coord} (hv : place pos p c q = some c)
    (h : Linked n (place pos p c) q q') : Linked n (playLocal n false pos p c) q q' := by
  have key : ∀ x, Linked n (place pos p c) q x → playLocal n false pos p c x = place pos p c x := by
    intro x hx
    apply playLocal_keep
    rw [linked_same hx, hv]; exact some_ne_opp
  induction h with
  | refl => exact .refl _
  | step hl ha hr hh ih => exact .step ih ha hr (by rw [key _ (.step hl ha hr hh), key _ hl, hh])

/-- Suicide in terms of the position before the move: three conditions around the point. -/
theorem suicideLocal_iff (he : pos p = none) :
    ¬ Spec.SuicideLocal n pos p c ↔ (∃ r, Adj p r ∧ OnBoard n r ∧ pos r = none) ∨
      (∃ s r, Adj p s ∧ OnBoard n s ∧ pos s = some c ∧ LibAt n pos s r ∧ r ≠ p) ∨
      (∃ s, Adj p s ∧ OnBoard n s ∧ pos s = some c.opp ∧ ∀ r, LibAt n pos s r → r = p) := by
  unfold Spec.SuicideLocal
  rw [Classical.not_not]
  constructor
  · rintro ⟨q, r, h1, h2, h3, h4⟩
    have hpl := linked_of_local h1
    have hrp : r ≠ p := by rintro rfl; rw [playLocal_self] at h4; cases h4
    rcases color_cases (pos r) c with h5 | h5 | h5
    · by_cases hq : q = p
      · subst hq; exact Or.inl ⟨r, h2, h3, h5⟩
      · obtain ⟨s, a, b, d, e⟩ := linked_place_from hpl hq
        exact Or.inr (Or.inl ⟨s, r, a, b, d, ⟨h3, h5, q, e, h2⟩, hrp⟩)
    · rw [playLocal_keep (by rw [place_ne hrp, h5]; exact some_ne_opp), place_ne hrp, h5] at h4; cases h4
    · exact Or.inr (Or.inr ((capturesLocal_iff he).1 ⟨r, h3, h5, h4⟩))
  · rintro (⟨r, a, b, d⟩ | ⟨s, r, a, b, d, ⟨e1, e2, q, e3, e4⟩, f⟩ | ⟨s, a, b, d, e⟩)
    · have hrp : r ≠ p := by rintro rfl; exact adj_irrefl a
      refine ⟨p, r, .refl _, a, b, ?_⟩
      rw [playLocal_keep (by rw [place_ne hrp, d]; simp), place_ne hrp, d]
    · have hsp : s ≠ p := by rintro rfl; exact adj_irrefl a
      have hs : place pos p c s = some c := by rw [place_ne hsp, d]
      have h1 : Linked n (playLocal n false pos p c) s q := linked_local_own hs (linked_place he (by rw [d]; simp) e3)
      refine ⟨q, r, linked_trans (.step (.refl _) a b ?_) h1, e4, e1, ?_⟩
      · rw [playLocal_self, playLocal_keep (by rw [hs]; exact some_ne_opp), hs]
      · rw [playLocal_keep (by rw [place_ne f, e2]; simp), place_ne f, e2]
    · exact ⟨p, s, .refl _, a, b, (playLocal_none he d).2 ⟨⟨s, a, b, d, .refl _⟩, e⟩⟩

theorem not_suicideLocal_of_captures (he : pos p = none) (h : Spec.CapturesLocal n pos p c) :
    ¬ Spec.SuicideLocal n pos p c := (suicideLocal_iff he).2 (Or.inr (Or.inr ((capturesLocal_iff he).1 h)))

/-- Without suicide both variants of the rule give the same position. -/
theorem playLocal_eq (s : Bool) (h : ¬ Spec.SuicideLocal n pos p c) : playLocal n s pos p c = playLocal n false pos p c := by
  cases s
  · rfl
  · funext q
    show removeGroupIfDead n (playLocal n false pos p c) p q = _
    unfold removeGroupIfDead
    rw [if_neg (fun h' => h h'.2)]

theorem captureAround_congr {a b : Pos} (h : SameOn n a b) (p : Coord) (c : Color) :
    SameOn n (captureAround n a p c) (captureAround n b p c) := by
  intro q hq
  unfold captureAround
  have key : ∀ {a b : Pos}, SameOn n a b → (a q = some c ∧ ¬ HasLiberty n a q ∧ ∃ r, Adj p r ∧ OnBoard n r ∧ a r = some c ∧ Linked n a r q) →
      (b q = some c ∧ ¬ HasLiberty n b q ∧ ∃ r, Adj p r ∧ OnBoard n r ∧ b r = some c ∧ Linked n b r q) := by
    rintro a b h ⟨h1, h2, r, h3, h4, h5, h6⟩
    exact ⟨by rw [← h q hq, h1], fun h' => h2 (hasLiberty_congr (SameOn.symm h) hq h'), r, h3, h4, by rw [← h r h4, h5],
      linked_congr h h4 h6⟩
  by_cases h1 : a q = some c ∧ ¬ HasLiberty n a q ∧ ∃ r, Adj p r ∧ OnBoard n r ∧ a r = some c ∧ Linked n a r q
  · rw [if_pos h1, if_pos (key h h1)]
  · rw [if_neg h1, if_neg (fun h' => h1 (key (SameOn.symm h) h')), h q hq]

theorem place_congr' {a b : Pos} (h : SameOn n a b) (p : Coord) (c : Color) : SameOn n (place a p c) (place b p c) := by
  intro q hq
  unfold place
  split
  · rfl
  · exact h q hq

theorem playLocal_congr {a b : Pos} (h : SameOn n a b) (s : Bool) {p : Coord} (hp : OnBoard n p) (c : Color) :
    SameOn n (playLocal n s a p c) (playLocal n s b p c) := by
  have h1 := captureAround_congr (place_congr' h p c) p c.opp
  cases s
  · exact h1
  · exact removeGroupIfDead_congr h1 hp

theorem suicideLocal_congr {a b : Pos} (h : SameOn n a b) (hp : OnBoard n p) :
    Spec.SuicideLocal n a p c ↔ Spec.SuicideLocal n b p c := by
  have h1 := playLocal_congr h false hp c
  exact ⟨fun h2 h3 => h2 (hasLiberty_congr (SameOn.symm h1) hp h3), fun h2 h3 => h2 (hasLiberty_congr h1 hp h3)⟩

theorem capturesLocal_congr {a b : Pos} (h : SameOn n a b) (hp : OnBoard n p) :
    Spec.CapturesLocal n a p c ↔ Spec.CapturesLocal n b p c := by
  have h1 := playLocal_congr h false hp c
  constructor
  · rintro ⟨q, x, y, z⟩; exact ⟨q, x, by rw [← h q x, y], by rw [← h1 q x, z]⟩
  · rintro ⟨q, x, y, z⟩; exact ⟨q, x, by rw [h q x, y], by rw [h1 q x, z]⟩

end

/-! ### The checks -/

theorem checkSuicide_local {dbg : Bool} {n : Dim} {g : Game} {p : Coord} {c : Color} (h : Inv n g.goban)
    (hp : OnBoard n p) (he : g.goban.view p = none) :
    ∃ b, g.checkSuicide dbg { coord := p, color := c } = .ok b ∧ (b = true ↔ Spec.SuicideLocal n g.goban.view p c) := by
  obtain ⟨b1, e1, h1⟩ := hasLiberties_ok (dbg := dbg) h hp
  obtain ⟨gs, e2, h2⟩ := connectedGroups_ok (dbg := dbg) h hp
  unfold Game.checkSuicide
  rw [e1, ok_bind]
  cases b1 with
  | true =>
    refine ⟨false, rfl, ?_⟩
    have := (suicideLocal_iff (n := n) (c := c) he).2 (Or.inl (h1.1 rfl))
    simp [this]
  | false =>
    rw [if_neg (by simp), e2, ok_bind]
    refine ⟨_, rfl, ?_⟩
    rw [Bool.not_eq_true', ← Bool.not_eq_true, any_iff]
    have hkey : (∃ a ∈ gs, (if a.color = c then !a.isAtari else a.isAtari) = true) ↔ ¬ Spec.SuicideLocal n g.goban.view p c := by
      rw [suicideLocal_iff he]
      constructor
      · rintro ⟨grp, hm, hP⟩
        obtain ⟨s, k, a1, a2, a3, a4⟩ := (h2 grp).1 hm
        have hv : g.goban.view s = some grp.color := by rw [h.view a2, col_of_bd a3 a4]
        have hat := h.atari_adj a4 a2 a3 hp he a1
        by_cases hc : grp.color = c
        · rw [if_pos hc, Bool.not_eq_true', ← Bool.not_eq_true, hat] at hP
          have : ∃ r, LibAt n g.goban.view s r ∧ r ≠ p := by
            apply Classical.byContradiction
            intro hne; apply hP
            intro x hx; apply Classical.byContradiction; intro hxp; exact hne ⟨x, hx, hxp⟩
          obtain ⟨r, hr, hrp⟩ := this
          exact Or.inr (Or.inl ⟨s, r, a1, a2, by rw [hv, hc], hr, hrp⟩)
        · rw [if_neg hc, hat] at hP
          exact Or.inr (Or.inr ⟨s, a1, a2, by rw [hv, Color.eq_opp_of_ne hc], hP⟩)
      · rintro (h' | ⟨s, r, a, b, d, e, f⟩ | ⟨s, a, b, d, e⟩)
        · have := h1.2 h'; cases this
        · obtain ⟨k, grp, b1, b2, b3⟩ := h.view_some b d
          refine ⟨grp, (h2 grp).2 ⟨s, k, a, b, b1, b2⟩, ?_⟩
          rw [if_pos b3, Bool.not_eq_true', ← Bool.not_eq_true, h.atari_adj b2 b b1 hp he a]
          intro h'; exact f (h' r e)
        · obtain ⟨k, grp, b1, b2, b3⟩ := h.view_some b d
          refine ⟨grp, (h2 grp).2 ⟨s, k, a, b, b1, b2⟩, ?_⟩
          rw [if_neg (by rw [b3]; exact Color.opp_ne c), h.atari_adj b2 b b1 hp he a]
          exact e
    rw [hkey, Classical.not_not]

theorem willCapture_local {dbg : Bool} {n : Dim} {g : Game} {p : Coord} (h : Inv n g.goban)
    (hp : OnBoard n p) (he : g.goban.view p = none) :
    ∃ b, g.willCapture dbg p = .ok b ∧ (b = true ↔ Spec.CapturesLocal n g.goban.view p g.turn) := by
  obtain ⟨gs, e2, h2⟩ := connectedGroups_ok (dbg := dbg) h hp
  unfold Game.willCapture
  rw [e2, ok_bind]
  refine ⟨_, rfl, ?_⟩
  rw [any_iff, capturesLocal_iff he]
  constructor
  · rintro ⟨grp, hm, hP⟩
    obtain ⟨s, k, a1, a2, a3, a4⟩ := (h2 grp).1 hm
    have hv : g.goban.view s = some grp.color := by rw [h.view a2, col_of_bd a3 a4]
    rw [Bool.and_eq_true, decide_eq_true_eq, h.atari_adj a4 a2 a3 hp he a1] at hP
    exact ⟨s, a1, a2, by rw [hv, Color.eq_opp_of_ne hP.1], hP.2⟩
  · rintro ⟨s, a, b, d, e⟩
    obtain ⟨k, grp, b1, b2, b3⟩ := h.view_some b d
    refine ⟨grp, (h2 grp).2 ⟨s, k, a, b, b1, b2⟩, ?_⟩
    rw [Bool.and_eq_true, decide_eq_true_eq, h.atari_adj b2 b b1 hp he a, b3]
    exact ⟨Color.opp_ne _, e⟩

/-! ### The relation -/

/-- The game `g` is in the state `s` of the game of `Spec.Local`; `o` is the outcome the game was created with. -/
structure SimL (dbg : Bool) (n : Dim) (m : Nat) (o : Option EndGame) (g : Game) (s : State) : Prop where
  board : Board dbg n m g.goban
  hist : Matches n g.history (Spec.firsts n s.played)
  pos : SameOn n g.goban.view s.pos
  turn : g.turn = s.turn
  passes : g.passes = s.passes
  prisoners : g.prisoners = s.prisoners
  outcome : g.outcome = (match s.resigned with
    | some c => some (.winnerByResign c)
    | none => o)
  ko : ∀ q, g.koPoint = some q ↔ ∃ b, s.before = some b ∧ OnBoard n q ∧
    ∀ r, OnBoard n r → ((b r = some s.turn ∧ s.pos r = none) ↔ r = q)

variable {dbg : Bool} {n : Dim} {m : Nat} {o : Option EndGame} {g : Game} {s : State}

theorem SimL.inv (h : SimL dbg n m o g s) : Inv n g.goban := h.board.inv.1

theorem SimL.notFull (h : SimL dbg n m o g s) (hm : m < 65535) : ¬ g.Full := by
  have := h.board.inv.2
  unfold Game.Full; omega

theorem SimL.checkSuicide (h : SimL dbg n m o g s) {p : Coord} (hp : OnBoard n p) (he : s.pos p = none) (c : Color) :
    ∃ b, g.checkSuicide dbg { coord := p, color := c } = .ok b ∧ (b = true ↔ Spec.SuicideLocal n s.pos p c) := by
  obtain ⟨b, e, hb⟩ := checkSuicide_local (dbg := dbg) (c := c) h.inv hp (by rw [h.pos p hp]; exact he)
  exact ⟨b, e, by rw [hb, suicideLocal_congr h.pos hp]⟩

theorem SimL.willCapture (h : SimL dbg n m o g s) {p : Coord} (hp : OnBoard n p) (he : s.pos p = none) :
    ∃ b, g.willCapture dbg p = .ok b ∧ (b = true ↔ Spec.CapturesLocal n s.pos p s.turn) := by
  obtain ⟨b, e, hb⟩ := willCapture_local (dbg := dbg) h.inv hp (by rw [h.pos p hp]; exact he)
  exact ⟨b, e, by rw [hb, capturesLocal_congr h.pos hp, h.turn]⟩

theorem SimL.checkEye (h : SimL dbg n m o g s) {p : Coord} (hp : OnBoard n p) :
    ∃ b, g.checkEye dbg { coord := p, color := g.turn } = .ok b ∧ (b = true ↔ Spec.Eye n s.pos s.turn p) := by
  obtain ⟨b, e, hb⟩ := checkEye_ok (dbg := dbg) (c := g.turn) h.inv hp
  exact ⟨b, e, by rw [hb, eye_congr h.pos hp, h.turn]⟩

theorem SimL.checkKo (h : SimL dbg n m o g s) {p : Coord} (hp : OnBoard n p) (he : s.pos p = none) (c : Color) :
    ∃ b, g.checkKo dbg { coord := p, color := c } = .ok b ∧ (b = true ↔ Spec.KoSeen n s p) := by
  obtain ⟨b, e, hb⟩ := checkKo_ok (dbg := dbg) (c := c) h.inv hp (by rw [h.pos p hp]; exact he)
  refine ⟨b, e, ?_⟩
  rw [hb, h.ko]
  unfold Spec.KoSeen
  have h1 : (∃ b, s.before = some b ∧ OnBoard n p ∧ ∀ r, OnBoard n r → ((b r = some s.turn ∧ s.pos r = none) ↔ r = p)) ↔
      ∃ b, s.before = some b ∧ ∀ r, OnBoard n r → ((b r = some s.turn ∧ s.pos r = none) ↔ r = p) :=
    ⟨fun ⟨b, a, _, c⟩ => ⟨b, a, c⟩, fun ⟨b, a, c⟩ => ⟨b, a, hp, c⟩⟩
  rw [h1]
  apply and_congr_right
  intro _
  constructor
  · intro hall t hadj htb hne hat u hu
    rw [onlyLiberty_iff] at hat
    exact hall t hadj htb (by rw [h.pos t htb]; exact hne) (fun r hr => hat r ((libAt_congr h.pos htb).1 hr)) u
      (linked_congr (SameOn.symm h.pos) htb hu)
  · intro hall t hadj htb hne hat u hu
    refine hall t hadj htb (by rw [← h.pos t htb]; exact hne) ?_ u (linked_congr h.pos htb hu)
    rw [onlyLiberty_iff]
    exact fun r hr => hat r ((libAt_congr h.pos htb).2 hr)

/-- `play_for_verification` shows the local move, suicide being *removed* exactly when it is forbidden. -/
theorem SimL.verification (h : SimL dbg n m o g s) {p : Coord} (hp : OnBoard n p) (he : s.pos p = none) :
    Safe g.Full (g.playForVerification dbg p) (fun b => Inv n b ∧
      SameOn n b.view (playLocal n g.rule.flagIllegal.suicide s.pos p s.turn)) := by
  have he' : g.goban.view p = none := by rw [h.pos p hp]; exact he
  rw [playForVerification_eq]
  apply Safe.bind (move_total (dbg := dbg) (suicide := g.rule.flagIllegal.suicide) (c := g.turn) h.inv hp he')
  intro c hc
  refine Safe.ok ⟨hc.inv, SameOn.trans hc.view ?_⟩
  rw [h.turn]
  exact playLocal_congr h.pos _ hp _

theorem SimL.checkSuperKo (h : SimL dbg n m o g s) {p : Coord} (hp : OnBoard n p) (he : s.pos p = none) :
    Safe g.Full (g.checkSuperKo dbg { coord := p, color := g.turn }) (fun b => (b = true ↔ Spec.SuperKoLocal n s p)) := by
  unfold Game.checkSuperKo Spec.SuperKoLocal
  rw [h.hist.length]
  split
  · rename_i hl
    exact Safe.ok (by simp; intro h'; omega)
  · rename_i hl
    obtain ⟨bc, ec, hbc⟩ := h.willCapture hp he
    rw [ec, ok_bind]
    cases bc with
    | false =>
      refine Safe.ok ?_
      simp only [Bool.false_eq_true, false_iff] at hbc ⊢
      intro h'; exact hbc h'.2.1
    | true =>
      have hcap := hbc.1 rfl
      have hns := not_suicideLocal_of_captures he hcap
      rw [if_neg (by simp)]
      apply Safe.bind (h.verification hp he)
      rintro v ⟨hvi, hv⟩
      rw [playLocal_eq _ hns] at hv
      obtain ⟨bk, ek, hk⟩ := h.checkKo hp he g.turn
      obtain ⟨r, er, hr⟩ := historyContains_ok hvi g.history h.hist.inv
      rw [ek, ok_bind]
      have hsk : (∃ b ∈ s.played, SameOn n (playLocal n false s.pos p s.turn) b) ↔ r = true := by
        rw [hr, h.hist.exists, mem_firsts]
        constructor
        · rintro ⟨q, h1, h2⟩; exact ⟨q, h1, SameOn.symm (SameOn.trans hv h2)⟩
        · rintro ⟨q, h1, h2⟩; exact ⟨q, h1, SameOn.symm (SameOn.trans h2 hv)⟩
      cases bk with
      | true =>
        refine Safe.ok ?_
        simp only [true_iff]
        exact ⟨by omega, hcap, Or.inl (hk.1 rfl)⟩
      | false =>
        refine Or.inl ⟨r, by rw [if_neg (by simp)]; exact er, ?_⟩
        rw [hsk]
        constructor
        · intro h'; exact ⟨by omega, hcap, Or.inr h'⟩
        · rintro ⟨_, _, h' | h'⟩
          · have := hk.2 h'; cases this
          · exact h'

open Classical in
theorem SimL.checkPointBy (h : SimL dbg n m o g s) {p : Coord} (hp : OnBoard n p) (he : s.pos p = none) (r : IllegalRules) :
    Safe g.Full (g.checkPointBy dbg p r) (fun e => toAnswer e = Spec.pointLocal n r.forbidden s p) := by
  obtain ⟨bs, e1, hs⟩ := h.checkSuicide hp he g.turn
  obtain ⟨bk, e2, hk⟩ := h.checkKo hp he g.turn
  obtain ⟨be, e3, hy⟩ := h.checkEye hp
  have e0 : g.goban.getColor p = .ok none := by rw [h.inv.getColor_view hp, h.pos p hp, he]
  rw [checkPointBy_eq e0 e1 e2 e3]
  rw [h.turn] at hs
  have n1 : ¬ (r.suicide = true ∧ bs = true) → ¬ (r.forbidden.suicide = true ∧ Spec.SuicideLocal n s.pos p s.turn) :=
    fun h' h2 => h' ⟨h2.1, hs.2 h2.2⟩
  have n2 : ¬ (r.ko = true ∧ bk = true) → ¬ (r.forbidden.ko = true ∧ Spec.KoSeen n s p) := fun h' h2 => h' ⟨h2.1, hk.2 h2.2⟩
  have n3 : ¬ (r.fillEye = true ∧ be = true) → ¬ (r.forbidden.fillEye = true ∧ Spec.Eye n s.pos s.turn p) :=
    fun h' h2 => h' ⟨h2.1, hy.2 h2.2⟩
  unfold Spec.pointLocal
  by_cases h1 : r.suicide = true ∧ bs = true
  · rw [if_pos (by simp [h1])]; exact Safe.ok (by rw [if_pos ⟨h1.1, hs.1 h1.2⟩]; rfl)
  · rw [if_neg (by simpa using h1)]
    by_cases h2 : r.ko = true ∧ bk = true
    · rw [if_pos (by simp [h2])]; exact Safe.ok (by rw [if_neg (n1 h1), if_pos ⟨h2.1, hk.1 h2.2⟩]; rfl)
    rw [if_neg (by simpa using h2)]
    by_cases h3 : r.fillEye = true ∧ be = true
    · rw [if_pos (by simp [h3])]; exact Safe.ok (by rw [if_neg (n1 h1), if_neg (n2 h2), if_pos ⟨h3.1, hy.1 h3.2⟩]; rfl)
    rw [if_neg (by simpa using h3)]
    by_cases h4 : r.superko = true
    · rw [if_pos h4]
      apply Safe.bind (h.checkSuperKo hp he)
      intro b hb
      refine Safe.ok ?_
      rw [if_neg (n1 h1), if_neg (n2 h2), if_neg (n3 h3)]
      by_cases hb' : b = true
      · rw [if_pos hb', if_pos ⟨h4, hb.1 hb'⟩]; rfl
      · rw [if_neg hb', if_neg (fun h' => hb' (hb.2 h'.2))]; rfl
    · rw [if_neg h4]
      exact Safe.ok (by rw [if_neg (n1 h1), if_neg (n2 h2), if_neg (n3 h3), if_neg (fun h' => h4 h'.1)]; rfl)

/-! ### One step -/

theorem removed_local {sa : Bool} {b : Goban} {p : Coord} {c : Color} {cs : Goban.Captures} {pos : Pos} (hI : Inv n b)
    (hc : MoveSpec n b sa p c cs) (hp : OnBoard n p) (he : pos p = none) (hv : SameOn n b.view pos)
    (hv' : SameOn n cs.goban.view (playLocal n sa pos p c)) (x : Color) :
    removedOf cs.removed x = Spec.vanished n (place pos p c) (playLocal n sa pos p c) x := by
  have h1 := hc.cnt x
  rw [cnt_eq_count hI, cnt_eq_count hc.inv, count_congr hv, count_congr hv'] at h1
  have h2 := count_place (c := c) hp he x
  have h3 := count_vanished (n := n) (a := place pos p c) (b := playLocal n sa pos p c) (fun q _ => local_sub q) x
  omega

/-- Playing a stone on an empty point. -/
theorem SimL.play (h : SimL dbg n m o g s) {x y : Nat} (hp : OnBoard n (x, y)) (he : s.pos (x, y) = none) :
    Safe g.Full (g.play dbg (.play x y)) (fun g' =>
      SimL dbg n (m + 1) o g' (Spec.applyLocal n g.rule.flagIllegal.forbidden s (.play (x, y))) ∧ g'.rule = g.rule) := by
  have he' : g.goban.view (x, y) = none := by rw [h.pos _ hp]; exact he
  rw [play_eq]
  obtain ⟨l', el, hl⟩ := historyInsert_ok h.inv g.history h.hist.inv
  rw [el, ok_bind]
  rcases move_total (dbg := dbg) (suicide := !g.rule.flagIllegal.suicide) (c := g.turn) h.inv hp he' with ⟨c, e, hc⟩ | ⟨e, hl⟩
  swap
  · rw [e]; exact Or.inr ⟨rfl, hl⟩
  have hview : SameOn n c.goban.view (playLocal n (!g.rule.flagIllegal.suicide) s.pos (x, y) s.turn) := by
    refine SameOn.trans hc.view ?_
    rw [h.turn]
    exact playLocal_congr h.pos _ hp _
  have hc' : MoveSpec n g.goban (!g.rule.flagIllegal.suicide) (x, y) s.turn c := by rw [← h.turn]; exact hc
  have hrem := removed_local h.inv hc' hp he h.pos hview
  rw [e, ok_bind]
  refine Safe.ok ⟨?_, rfl⟩
  refine ⟨h.board.move hp ((getColor_none h.inv hp).2 he') e, ?_, hview, ?_, rfl, ?_, h.outcome, ?_⟩
  · show Matches n l' (Spec.firsts n (s.played ++ [s.pos]))
    rw [firsts_append]
    have hex : (∃ b ∈ g.history, SameOn n b.view g.goban.view) ↔ ∃ q ∈ Spec.firsts n s.played, SameOn n q s.pos := by
      rw [h.hist.exists]
      constructor
      · rintro ⟨q, h1, h2⟩; exact ⟨q, h1, SameOn.trans h2 h.pos⟩
      · rintro ⟨q, h1, h2⟩; exact ⟨q, h1, SameOn.trans h2 (SameOn.symm h.pos)⟩
    rcases hl with ⟨rfl, h1⟩ | ⟨rfl, h1⟩
    · rw [if_pos (hex.1 h1)]; exact h.hist
    · rw [if_neg (fun h' => h1 (hex.2 h'))]; exact h.hist.append h.inv h.pos
  · show g.turn.opp = s.turn.opp
    rw [h.turn]
  · show (g.prisoners.1 + c.removed.1, g.prisoners.2 + c.removed.2) = _
    rw [h.prisoners]
    show (_, _) = (s.prisoners.1 + _, s.prisoners.2 + _)
    rw [Prod.mk.injEq]
    exact ⟨congrArg _ (hrem .white), congrArg _ (hrem .black)⟩
  · intro q
    show c.ko = some q ↔ ∃ b, some s.pos = some b ∧ OnBoard n q ∧
      ∀ r, OnBoard n r → ((b r = some s.turn.opp ∧ playLocal n (!g.rule.flagIllegal.suicide) s.pos (x, y) s.turn r = none) ↔ r = q)
    rw [hc'.ko]
    constructor
    · rintro ⟨h1, h2⟩
      refine ⟨_, rfl, h1, ?_⟩
      intro r hr
      rw [← h.pos r hr, ← hview r hr]
      exact h2 r hr
    · rintro ⟨b, e1, h1, h2⟩
      cases e1
      refine ⟨h1, ?_⟩
      intro r hr
      rw [h.pos r hr, hview r hr]
      exact h2 r hr

theorem SimL.pass (h : SimL dbg n m o g s) (hps : s.passes < 2) :
    ∃ g', g.play dbg .pass = .ok g' ∧ SimL dbg n m o g' (Spec.applyLocal n g.rule.flagIllegal.forbidden s .pass) ∧ g'.rule = g.rule := by
  unfold Game.play
  have hp : g.passes < 2 := by rw [h.passes]; exact hps
  rw [decide_eq_true hp]
  refine ⟨_, rfl, ?_, rfl⟩
  refine ⟨h.board, h.hist, h.pos, ?_, ?_, h.prisoners, h.outcome, ?_⟩
  · show g.turn.opp = s.turn.opp; rw [h.turn]
  · show g.passes + 1 = s.passes + 1; rw [h.passes]
  · intro q
    constructor
    · intro h'; cases h'
    · rintro ⟨b, h', _⟩; cases h'

theorem SimL.resign (h : SimL dbg n m o g s) (c : Color) :
    ∃ g', g.play dbg (.resign c) = .ok g' ∧ SimL dbg n m o g' (Spec.applyLocal n g.rule.flagIllegal.forbidden s (.resign c)) ∧
      g'.rule = g.rule := by
  unfold Game.play
  exact ⟨_, rfl, ⟨h.board, h.hist, h.pos, h.turn, h.passes, h.prisoners, rfl, h.ko⟩, rfl⟩

theorem SimL.resume (h : SimL dbg n m o g s) : SimL dbg n m o g.resume { s with passes := 0 } :=
  ⟨h.board, h.hist, h.pos, h.turn, rfl, h.prisoners, h.outcome, h.ko⟩

theorem SimL.setKomi (h : SimL dbg n m o g s) (k : F32) : SimL dbg n m o (g.setKomi k) s :=
  ⟨h.board, h.hist, h.pos, h.turn, h.passes, h.prisoners, h.outcome, h.ko⟩

/-- `play`, unchecked. -/
theorem SimL.force (h : SimL dbg n m o g s) (mv : Move) (hmv : mv.OnBoard n) (hp2 : s.passes ≤ 2)
    (hpr : (Spec.LCall.force mv.call).Proper s) :
    Safe g.Full (g.play dbg mv) (fun g' => (∃ m' ≤ m + 1, SimL dbg n m' o g' (Spec.applyLocal n g.rule.flagIllegal.forbidden s mv.call)) ∧
      g'.rule = g.rule ∧ (Spec.applyLocal n g.rule.flagIllegal.forbidden s mv.call).passes ≤ 2) := by
  cases mv with
  | pass =>
    have hps : s.passes < 2 := hpr
    obtain ⟨g', e, h', hr'⟩ := h.pass hps
    exact Or.inl ⟨g', e, ⟨m, by omega, h'⟩, hr', by show s.passes + 1 ≤ 2; omega⟩
  | resign c =>
    obtain ⟨g', e, h', hr'⟩ := h.resign c
    exact Or.inl ⟨g', e, ⟨m, by omega, h'⟩, hr', hp2⟩
  | play x y =>
    exact (h.play (x := x) (y := y) hmv hpr).mono (fun g' hg => ⟨⟨m + 1, by omega, hg.1⟩, hg.2, by show 0 ≤ 2; omega⟩)

/-- One checked call. -/
theorem SimL.tryPlay (h : SimL dbg n m o g s) (mv : Move) (hmv : mv.OnBoard n) (hp2 : s.passes ≤ 2) :
    Safe g.Full (g.tryPlay dbg mv) (fun r => toAnswer r.1 = (Spec.stepLocal n g.rule.flagIllegal.forbidden s (.ask mv.call)).1 ∧
      (∃ m' ≤ m + 1, SimL dbg n m' o r.2 (Spec.stepLocal n g.rule.flagIllegal.forbidden s (.ask mv.call)).2) ∧
      r.2.rule = g.rule ∧ (Spec.stepLocal n g.rule.flagIllegal.forbidden s (.ask mv.call)).2.passes ≤ 2) := by
  have refused : ∀ (e : PlayError), Spec.answerLocal n g.rule.flagIllegal.forbidden s mv.call = toAnswer (some e) →
      Safe g.Full (.ok (some e, g)) (fun r => toAnswer r.1 = (Spec.stepLocal n g.rule.flagIllegal.forbidden s (.ask mv.call)).1 ∧
      (∃ m' ≤ m + 1, SimL dbg n m' o r.2 (Spec.stepLocal n g.rule.flagIllegal.forbidden s (.ask mv.call)).2) ∧
      r.2.rule = g.rule ∧ (Spec.stepLocal n g.rule.flagIllegal.forbidden s (.ask mv.call)).2.passes ≤ 2) := by
    intro e ha
    have hne : toAnswer (some e) ≠ .ok := fun h' => by rw [toAnswer_ok] at h'; cases h'
    have hst : Spec.stepLocal n g.rule.flagIllegal.forbidden s (.ask mv.call) = (toAnswer (some e), s) := by
      unfold Spec.stepLocal
      dsimp only
      rw [if_neg (fun h' => hne (ha.symm.trans h')), ha]
    rw [hst]
    exact Safe.ok ⟨rfl, ⟨m, by omega, h⟩, rfl, hp2⟩
  have accepted : Spec.answerLocal n g.rule.flagIllegal.forbidden s mv.call = .ok → (Spec.LCall.force mv.call).Proper s →
      Safe g.Full (do let g' ← g.play dbg mv; .ok (none, g')) (fun r => toAnswer r.1 = (Spec.stepLocal n g.rule.flagIllegal.forbidden s (.ask mv.call)).1 ∧
      (∃ m' ≤ m + 1, SimL dbg n m' o r.2 (Spec.stepLocal n g.rule.flagIllegal.forbidden s (.ask mv.call)).2) ∧
      r.2.rule = g.rule ∧ (Spec.stepLocal n g.rule.flagIllegal.forbidden s (.ask mv.call)).2.passes ≤ 2) := by
    intro ha hpr
    have hst : Spec.stepLocal n g.rule.flagIllegal.forbidden s (.ask mv.call) =
        (.ok, Spec.applyLocal n g.rule.flagIllegal.forbidden s mv.call) := by
      unfold Spec.stepLocal
      dsimp only
      rw [if_pos ha]
    rw [hst]
    apply Safe.bind (h.force mv hmv hp2 hpr)
    rintro g' ⟨h1, h2, h3⟩
    exact Safe.ok ⟨rfl, h1, h2, h3⟩
  cases mv with
  | pass =>
    have ha : Spec.answerLocal n g.rule.flagIllegal.forbidden s Move.pass.call = if s.passes = 2 then .paused else .ok := rfl
    unfold Game.tryPlay
    rw [h.passes]
    by_cases hps : s.passes = 2
    · rw [if_pos hps] at ha ⊢
      exact refused .gamePaused ha
    · rw [if_neg hps] at ha ⊢
      exact accepted ha (show s.passes < 2 by omega)
  | resign c =>
    have ha : Spec.answerLocal n g.rule.flagIllegal.forbidden s (Move.resign c).call = if s.passes = 2 then .paused else .ok := rfl
    unfold Game.tryPlay
    rw [h.passes]
    by_cases hps : s.passes = 2
    · rw [if_pos hps] at ha ⊢
      exact refused .gamePaused ha
    · rw [if_neg hps] at ha ⊢
      exact accepted ha trivial
  | play x y =>
    have hp : OnBoard n (x, y) := hmv
    have ha : Spec.answerLocal n g.rule.flagIllegal.forbidden s (Move.play x y).call = if s.passes = 2 then .paused
      else if s.pos (x, y) ≠ none then .occupied else Spec.pointLocal n g.rule.flagIllegal.forbidden s (x, y) := by
      unfold Spec.answerLocal Move.call; rfl
    unfold Game.tryPlay
    rw [h.passes]
    by_cases hps : s.passes = 2
    · rw [if_pos hps] at ha ⊢
      exact refused .gamePaused ha
    rw [if_neg hps] at ha ⊢
    dsimp only
    rw [h.inv.getColor_view hp, ok_bind, h.pos _ hp]
    by_cases he : s.pos (x, y) = none
    · rw [if_neg (fun h' => h' he)] at ha
      rw [he]
      show Safe _ (do
        let e ← g.checkPointBy dbg (x, y) g.rule.flagIllegal
        match e with
        | some e => .ok (some e, g)
        | none => do
          let g' ← g.play dbg (.play x y)
          .ok (none, g')) _
      apply Safe.bind (h.checkPointBy hp he _)
      intro e hf
      cases e with
      | some e => exact refused e (ha.trans hf.symm)
      | none => exact accepted (ha.trans hf.symm) he
    · rw [if_pos he] at ha
      cases hc : s.pos (x, y) with
      | none => exact absurd hc he
      | some d => exact refused .pointNotEmpty ha

/-! ### Sequences of calls -/

theorem SimL.act (h : SimL dbg n m o g s) (c : ROp) (hc : c.OnBoard n) (hp2 : s.passes ≤ 2) (hpr : c.call.Proper s) :
    Safe g.Full (g.act dbg c) (fun r => toAnswer r.1 = (Spec.stepLocal n g.rule.flagIllegal.forbidden s c.call).1 ∧
      (∃ m' ≤ m + 1, SimL dbg n m' o r.2 (Spec.stepLocal n g.rule.flagIllegal.forbidden s c.call).2) ∧
      r.2.rule.flagIllegal = g.rule.flagIllegal ∧ (Spec.stepLocal n g.rule.flagIllegal.forbidden s c.call).2.passes ≤ 2) := by
  cases c with
  | ask c =>
    cases c with
    | try_ mv => exact (h.tryPlay mv hc hp2).mono (fun r hr => ⟨hr.1, hr.2.1, by rw [hr.2.2.1], hr.2.2.2⟩)
    | resume => exact Safe.ok ⟨rfl, ⟨m, by omega, h.resume⟩, rfl, Nat.zero_le _⟩
    | setKomi k => exact Safe.ok ⟨rfl, ⟨m, by omega, h.setKomi k⟩, rfl, hp2⟩
  | force mv =>
    apply Safe.bind (h.force mv hc hp2 hpr)
    rintro g' ⟨h1, h2, h3⟩
    exact Safe.ok ⟨rfl, h1, by rw [h2], h3⟩

theorem SimL.acts : ∀ (cs : List ROp) {m : Nat} {g : Game} {s : State} {es : List (Option PlayError)} {g' : Game},
    SimL dbg n m o g s → s.passes ≤ 2 → (∀ c ∈ cs, c.OnBoard n) →
    Spec.ProperRun n g.rule.flagIllegal.forbidden s (cs.map ROp.call) → g.acts dbg cs = .ok (es, g') →
    es.map toAnswer = (Spec.runLocal n g.rule.flagIllegal.forbidden s (cs.map ROp.call)).1 ∧
      (∃ m' ≤ m + cs.length, SimL dbg n m' o g' (Spec.runLocal n g.rule.flagIllegal.forbidden s (cs.map ROp.call)).2) ∧
      g'.rule.flagIllegal = g.rule.flagIllegal
  | [], m, g, s, es, g', h, _, _, _, e => by
    cases e
    exact ⟨rfl, ⟨m, by simp, h⟩, rfl⟩
  | c :: cs, m, g, s, es, g', h, hp, hon, hpr, e => by
    unfold Game.acts at e
    obtain ⟨r, e1, e⟩ := bind_eq_ok e
    obtain ⟨rs, e2, e⟩ := bind_eq_ok e
    cases e
    obtain ⟨h3, ⟨m1, h2, h4⟩, h5, h6⟩ := (h.act c (hon c (by simp)) hp hpr.1).of_ok e1
    obtain ⟨r3, ⟨m', r2, r4⟩, r5⟩ := SimL.acts cs h4 h6 (fun c hc => hon c (by simp [hc])) (by rw [h5]; exact hpr.2) e2
    rw [h5] at r3 r4 r5
    refine ⟨?_, ⟨m', ?_, r4⟩, r5⟩
    · rw [List.map_cons, List.map_cons, h3, r3]; rfl
    · rw [List.length_cons]; omega

theorem SimL.acts_total : ∀ (cs : List ROp) {m : Nat} {g : Game} {s : State}, SimL dbg n m o g s → s.passes ≤ 2 →
    (∀ c ∈ cs, c.OnBoard n) → Spec.ProperRun n g.rule.flagIllegal.forbidden s (cs.map ROp.call) → m + cs.length ≤ 65535 →
    ∃ es g', g.acts dbg cs = .ok (es, g') ∧ es.length = cs.length
  | [], m, g, s, _, _, _, _, _ => ⟨[], g, rfl, rfl⟩
  | c :: cs, m, g, s, h, hp, hon, hpr, hm => by
    rw [List.length_cons] at hm
    obtain ⟨r, e1, _, ⟨m1, h2, h4⟩, h5, h6⟩ := (h.act (dbg := dbg) c (hon c (by simp)) hp hpr.1).total (h.notFull (by omega))
    obtain ⟨es, g', e2, hl⟩ := SimL.acts_total cs h4 h6 (fun c hc => hon c (by simp [hc])) (by rw [h5]; exact hpr.2) (by omega)
    refine ⟨r.1 :: es, g', ?_, by rw [List.length_cons, hl, List.length_cons]⟩
    unfold Game.acts
    rw [e1, ok_bind, e2, ok_bind]

theorem Fresh.simL (h : Fresh dbg n m g) : SimL dbg n m g.outcome g (State.start g.goban.view g.turn) := by
  have hs := h.spec
  refine ⟨hs.board, ?_, SameOn.refl _, rfl, hs.passes, hs.prisoners, rfl, ?_⟩
  · rw [hs.history]; trivial
  · intro q
    rw [hs.ko]
    constructor
    · intro h; cases h
    · rintro ⟨b, h, _⟩; cases h

theorem Reach.simL (h : Reach dbg n m g) : ∃ o s, s.passes ≤ 2 ∧ SimL dbg n m o g s := by
  induction h with
  | fresh hf => exact ⟨_, _, Nat.zero_le _, hf.simL⟩
  | @play m g x y g' _ hp he e ih =>
    obtain ⟨o, s, _, hs⟩ := ih
    have he' : s.pos (x, y) = none := by rw [← hs.pos _ hp]; exact (getColor_none hs.inv hp).1 he
    exact ⟨o, _, Nat.zero_le _, ((hs.play hp he').of_ok e).1⟩
  | @pass m g g' _ e ih =>
    obtain ⟨o, s, hps, hs⟩ := ih
    have hlt : s.passes < 2 := by
      rw [← hs.passes]
      unfold Game.play at e
      by_cases hlt : g.passes < 2
      · exact hlt
      · rw [decide_eq_false hlt] at e; cases e
    obtain ⟨g'', e', h', _⟩ := hs.pass (dbg := dbg) hlt
    rw [e] at e'; cases e'
    exact ⟨o, _, by show s.passes + 1 ≤ 2; omega, h'⟩
  | @resign m g c g' _ e ih =>
    obtain ⟨o, s, hps, hs⟩ := ih
    obtain ⟨g'', e', h', _⟩ := hs.resign (dbg := dbg) c
    rw [e] at e'; cases e'
    exact ⟨o, Spec.applyLocal n g.rule.flagIllegal.forbidden s (.resign c), hps, h'⟩
  | resume _ ih =>
    obtain ⟨o, s, hps, hs⟩ := ih
    exact ⟨o, _, Nat.zero_le _, hs.resume⟩
  | setKomi _ ih =>
    obtain ⟨o, s, hps, hs⟩ := ih
    exact ⟨o, _, hps, hs.setKomi _⟩

/-! ### No new dead groups -/

section
variable {pos : Pos} {p : Coord} {c : Color}

theorem linked_removeGroup {a : Pos} {q q' : Coord} (hq : ¬ Linked n a p q) (h : Linked n a q q')
    (hqb : OnBoard n q) : Linked n (removeGroupIfDead n a p) q q' := by
  have key : ∀ x, Linked n a q x → removeGroupIfDead n a p x = a x := by
    intro x hx
    unfold removeGroupIfDead
    rw [if_neg]
    rintro ⟨h', _⟩
    exact hq (linked_trans h' (linked_symm hqb hx))
  induction h with
  | refl => exact .refl _
  | step hl ha hr he ih => exact .step ih ha hr (by rw [key _ (.step hl ha hr he), key _ hl, he])

/-- A group that had a liberty, was not captured and did not join the played stone still has a liberty. -/
theorem local_lib {q : Coord} (hp : OnBoard n p) (he : pos p = none) (hq : OnBoard n q) (hv : pos q ≠ none)
    (hl : HasLiberty n pos q) (ha : playLocal n false pos p c q ≠ none) (hj : ¬ Linked n (playLocal n false pos p c) p q) :
    HasLiberty n (playLocal n false pos p c) q := by
  have hqp : q ≠ p := by rintro rfl; exact hv he
  have hsame : playLocal n false pos p c q = pos q := by
    rcases local_sub (n := n) (pos := pos) (p := p) (c := c) (s := false) q with h | h
    · exact absurd h ha
    · rw [h, place_ne hqp]
  -- the whole group of `q` is kept
  have keep : ∀ x, Linked n pos q x → playLocal n false pos p c x = pos x := by
    intro x hx
    have hxc := linked_same hx
    have hxp : x ≠ p := by rintro rfl; rw [he] at hxc; exact hv hxc.symm
    have hxb := linked_onBoard hx hq
    rcases local_sub (n := n) (pos := pos) (p := p) (c := c) (s := false) x with h | h
    · rcases color_cases (pos x) c with h1 | h1 | h1
      · rw [h, h1]
      · rw [playLocal_keep (by rw [place_ne hxp, h1]; exact some_ne_opp), place_ne hxp]
      · exfalso
        obtain ⟨⟨s, a, b, d, f⟩, hall⟩ := (playLocal_none he h1).1 h
        apply ha
        rw [playLocal_none he (hxc.symm.trans h1)]
        exact ⟨⟨s, a, b, d, linked_trans f (linked_symm hq hx)⟩, fun r hr => hall r ((libAt_linked hq hx).1 hr)⟩
    · rw [h, place_ne hxp]
  have lift : ∀ x, Linked n pos q x → Linked n (playLocal n false pos p c) q x := by
    intro x hx
    induction hx with
    | refl => exact .refl _
    | step hl ha hr hh ih => exact .step ih ha hr (by rw [keep _ (.step hl ha hr hh), keep _ hl, hh])
  obtain ⟨q', r, h1, h2, h3, h4⟩ := hl
  by_cases hr : ∃ r, LibAt n pos q r ∧ r ≠ p
  · obtain ⟨r, ⟨d, e, q', a, b⟩, hrp⟩ := hr
    exact ⟨q', r, lift _ a, b, d, by rw [playLocal_keep (by rw [place_ne hrp, e]; simp), place_ne hrp, e]⟩
  · exfalso
    have honly : ∀ r, LibAt n pos q r → r = p := by
      intro r hr'; apply Classical.byContradiction; intro hne; exact hr ⟨r, hr', hne⟩
    have hrp : r = p := honly r ⟨h3, h4, q', h1, h2⟩
    subst hrp
    have hq' := linked_onBoard h1 hq
    rcases color_cases (pos q) c with h5 | h5 | h5
    · exact hv h5
    · -- an own group next to the stone joins it
      apply hj
      have : playLocal n false pos r c q' = playLocal n false pos r c r := by
        rw [keep _ h1, linked_same h1, h5, playLocal_self]
      exact linked_trans (.step (.refl _) (adj_symm h2) hq' this) (linked_symm hq (lift _ h1))
    · apply ha
      rw [playLocal_none he h5]
      exact ⟨⟨q', adj_symm h2, hq', by rw [linked_same h1, h5], linked_symm hq h1⟩, honly⟩

/-- After a move that is not an unremoved suicide, a group without liberties was there without liberties before. -/
theorem local_no_new_dead {sa : Bool} {q : Coord} (hp : OnBoard n p) (he : pos p = none)
    (hs : sa = true ∨ ¬ Spec.SuicideLocal n pos p c) (hq : OnBoard n q) (ha : playLocal n sa pos p c q ≠ none)
    (hl : ¬ HasLiberty n (playLocal n sa pos p c) q) : pos q = playLocal n sa pos p c q ∧ ¬ HasLiberty n pos q := by
  have key : ∀ q, OnBoard n q → playLocal n false pos p c q ≠ none → ¬ Linked n (playLocal n false pos p c) p q →
      ¬ HasLiberty n (playLocal n false pos p c) q → pos q = playLocal n false pos p c q ∧ ¬ HasLiberty n pos q := by
    intro q hq ha hj hl
    have hqp : q ≠ p := by rintro rfl; exact hj (.refl _)
    have h1 : pos q = playLocal n false pos p c q := by
      rcases local_sub (n := n) (pos := pos) (p := p) (c := c) (s := false) q with h | h
      · exact absurd h ha
      · rw [h, place_ne hqp]
    exact ⟨h1, fun h => hl (local_lib hp he hq (by rw [h1]; exact ha) h ha hj)⟩
  by_cases hsu : Spec.SuicideLocal n pos p c
  · rcases hs with rfl | hs
    · have hrm : ∀ x, playLocal n true pos p c x = removeGroupIfDead n (playLocal n false pos p c) p x := fun _ => rfl
      have hj : ¬ Linked n (playLocal n false pos p c) p q := by
        intro h
        apply ha
        rw [hrm]; unfold removeGroupIfDead
        rw [if_pos ⟨h, hsu⟩]
      have hsame : playLocal n true pos p c q = playLocal n false pos p c q := by
        rw [hrm]; unfold removeGroupIfDead
        rw [if_neg (fun h => hj h.1)]
      rw [hsame] at ha ⊢
      refine key q hq ha hj ?_
      rintro ⟨q', r, h1, h2, h3, h4⟩
      refine hl ⟨q', r, linked_removeGroup hj h1 hq, h2, h3, ?_⟩
      rcases removeGroupIfDead_sub (n := n) (pos := playLocal n false pos p c) (p := p) r with h | h
      · exact h
      · exact h.trans h4
    · exact absurd hsu hs
  · rw [playLocal_eq sa hsu] at ha hl ⊢
    refine key q hq ha ?_ hl
    intro h
    exact hl ((hasLiberty_linked hp h).1 (Classical.not_not.1 hsu))

end

/-! ### Agreement with the textbook on positions without dead groups -/

theorem suicideLocal_eq {pos : Pos} {p : Coord} {c : Color} (hd : NoDead n pos) (hp : OnBoard n p) (he : pos p = none) :
    Spec.SuicideLocal n pos p c ↔ Spec.Suicide n pos p c := by
  have h := playLocal_eq_play (c := c) false hd hp he
  exact ⟨fun h1 h2 => h1 (hasLiberty_congr (SameOn.symm h) hp h2), fun h1 h2 => h1 (hasLiberty_congr h hp h2)⟩

theorem capturesLocal_eq {pos : Pos} {p : Coord} {c : Color} (hd : NoDead n pos) (hp : OnBoard n p) (he : pos p = none) :
    Spec.CapturesLocal n pos p c ↔ Spec.Captures n pos p c := by
  have h := playLocal_eq_play (c := c) false hd hp he
  constructor
  · rintro ⟨q, h1, h2, h3⟩; exact ⟨q, h1, h2, by rw [← h3, h q h1]; rfl⟩
  · rintro ⟨q, h1, h2, h3⟩; exact ⟨q, h1, h2, (h q h1).trans h3⟩

end Model
