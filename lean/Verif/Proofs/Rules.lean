import Verif.Proofs.View
/-!
# Facts about the rules of Go, on positions only
-/

namespace Model
open Spec (OnBoard Adj Linked HasLiberty NoDead place removeDead captureAround removeGroupIfDead playLocal Suicide SameOn Pos)

/-- `r` is a liberty of the group of `q`. -/
def LibAt (n : Dim) (pos : Pos) (q r : Coord) : Prop := OnBoard n r ∧ pos r = none ∧ ∃ q', Linked n pos q q' ∧ Adj q' r

theorem hasLiberty_iff_libAt {n : Dim} {pos : Pos} {q : Coord} : HasLiberty n pos q ↔ ∃ r, LibAt n pos q r := by
  constructor
  · rintro ⟨q', r, a, b, c, d⟩; exact ⟨r, c, d, q', a, b⟩
  · rintro ⟨r, c, d, q', a, b⟩; exact ⟨q', r, a, b, c, d⟩

theorem place_self (pos : Pos) (p : Coord) (c : Color) : place pos p c p = some c := by unfold place; rw [if_pos rfl]
theorem place_ne {pos : Pos} {p q : Coord} {c : Color} (h : q ≠ p) : place pos p c q = pos q := by
  unfold place; rw [if_neg h]

theorem color_cases (o : Option Color) (c : Color) : o = none ∨ o = some c ∨ o = some c.opp := by
  cases o with
  | none => exact Or.inl rfl
  | some d => by_cases h : d = c
              · exact Or.inr (Or.inl (by rw [h]))
              · exact Or.inr (Or.inr (by rw [Color.eq_opp_of_ne h]))

theorem some_ne_opp {c : Color} : (some c : Option Color) ≠ some c.opp := fun h => Color.ne_opp c (Option.some.inj h)

/-! ### Removing stones -/

theorem linked_of_sub {n : Dim} {a b : Pos} (h : ∀ q, a q = none ∨ a q = b q) {q q' : Coord} (hq : a q ≠ none)
    (hl : Linked n a q q') : Linked n b q q' := by
  induction hl with
  | refl => exact .refl _
  | step hl ha hr he ih =>
    have h1 := linked_same hl
    refine .step ih ha hr ?_
    rcases h _ with h' | h'
    · rw [← he] at h1; rw [h'] at h1; exact absurd h1.symm hq
    · rw [← h', he]
      rcases h _ with h' | h'
      · rw [h'] at h1; exact absurd h1.symm hq
      · exact h'

theorem removeDead_sub {n : Dim} {pos : Pos} {c : Color} (q : Coord) :
    removeDead n pos c q = none ∨ removeDead n pos c q = pos q := by
  unfold removeDead; split
  · exact Or.inl rfl
  · exact Or.inr rfl

theorem hasLiberty_linked {n : Dim} {pos : Pos} {p q : Coord} (hp : OnBoard n p) (h : Linked n pos p q) :
    HasLiberty n pos p ↔ HasLiberty n pos q := by
  constructor
  · rintro ⟨q', r, a, b⟩; exact ⟨q', r, linked_trans (linked_symm hp h) a, b⟩
  · rintro ⟨q', r, a, b⟩; exact ⟨q', r, linked_trans h a, b⟩

/-- A group with a liberty (or of the other colour) survives as a whole. -/
theorem linked_removeDead {n : Dim} {pos : Pos} {c : Color} {q q' : Coord} (hq : OnBoard n q)
    (hs : pos q ≠ some c ∨ HasLiberty n pos q) (hl : Linked n pos q q') : Linked n (removeDead n pos c) q q' := by
  have key : ∀ x, Linked n pos q x → removeDead n pos c x = pos x := by
    intro x hx
    unfold removeDead
    rw [if_neg]
    rintro ⟨h1, h2⟩
    rcases hs with h | h
    · rw [linked_same hx] at h1; exact h h1
    · exact h2 ((hasLiberty_linked hq hx).1 h)
  induction hl with
  | refl => exact .refl _
  | step hl ha hr he ih => exact .step ih ha hr (by rw [key _ (.step hl ha hr he), key _ hl, he])

theorem removeDead_none {n : Dim} {pos : Pos} {c : Color} {q : Coord} (h : pos q = none) : removeDead n pos c q = none := by
  rcases removeDead_sub (n := n) (c := c) q with h' | h'
  · exact h'
  · rw [h', h]

theorem hasLiberty_removeDead {n : Dim} {pos : Pos} {c : Color} {q : Coord} (hq : OnBoard n q)
    (h : HasLiberty n pos q) : HasLiberty n (removeDead n pos c) q := by
  obtain ⟨q', r, a, b, d, e⟩ := h
  exact ⟨q', r, linked_removeDead hq (Or.inr ⟨q', r, a, b, d, e⟩) a, b, d, removeDead_none e⟩

theorem removeDead_other {n : Dim} {pos : Pos} {c d : Color} {q : Coord} (h : pos q = some d) (hd : d ≠ c) :
    removeDead n pos c q = some d := by
  unfold removeDead; rw [if_neg, h]
  rintro ⟨h1, _⟩; rw [h] at h1; exact hd (Option.some.inj h1)

/-! ### Placing a stone -/

section
variable {n : Dim} {pos : Pos} {p : Coord} {c : Color}

theorem linked_place {q q' : Coord} (he : pos p = none) (hq : pos q ≠ none) (h : Linked n pos q q') :
    Linked n (place pos p c) q q' := by
  have key : ∀ x, Linked n pos q x → x ≠ p := by
    intro x hx h'; have := linked_same hx; rw [h', he] at this; exact hq this.symm
  induction h with
  | refl => exact .refl _
  | step hl ha hr hh ih => exact .step ih ha hr (by rw [place_ne (key _ (.step hl ha hr hh)), place_ne (key _ hl), hh])

theorem linked_place_opp {q q' : Coord} (hq : place pos p c q = some c.opp) (h : Linked n (place pos p c) q q') :
    Linked n pos q q' := by
  have key : ∀ x, Linked n (place pos p c) q x → x ≠ p := by
    intro x hx h'; have := linked_same hx; rw [h', place_self, hq] at this; exact some_ne_opp this
  induction h with
  | refl => exact .refl _
  | step hl ha hr hh ih =>
    exact .step ih ha hr (by rw [← place_ne (pos := pos) (c := c) (key _ (.step hl ha hr hh)), hh, place_ne (key _ hl)])

theorem linked_place_from {q : Coord} (h : Linked n (place pos p c) p q) (hq : q ≠ p) :
    ∃ s, Adj p s ∧ OnBoard n s ∧ pos s = some c ∧ Linked n pos s q := by
  induction h with
  | refl => exact absurd rfl hq
  | @step q' r hl ha hr hh ih =>
    have hcol : place pos p c r = some c := by rw [hh, linked_same hl, place_self]
    rw [place_ne hq] at hcol
    by_cases hqp : q' = p
    · subst hqp
      exact ⟨r, ha, hr, hcol, .refl _⟩
    · obtain ⟨s, h1, h2, h3, h4⟩ := ih hqp
      refine ⟨s, h1, h2, h3, .step h4 ha hr ?_⟩
      rw [hcol, linked_same h4, h3]

/-- Liberties of an opposing group after the stone is placed. -/
theorem hasLiberty_place_opp {q : Coord} (hqp : q ≠ p) (he : pos p = none) (hv : pos q = some c.opp) :
    HasLiberty n (place pos p c) q ↔ ∃ r, LibAt n pos q r ∧ r ≠ p := by
  have hq : place pos p c q = some c.opp := by rw [place_ne hqp, hv]
  constructor
  · rintro ⟨q', r, a, b, d, e⟩
    have hr : r ≠ p := by intro h; rw [h, place_self] at e; cases e
    rw [place_ne hr] at e
    exact ⟨r, ⟨d, e, q', linked_place_opp hq a, b⟩, hr⟩
  · rintro ⟨r, ⟨d, e, q', a, b⟩, hr⟩
    exact ⟨q', r, linked_place he (by rw [hv]; simp) a, b, d, by rw [place_ne hr, e]⟩

/-- The position after the stone and the captures. -/
noncomputable def after (n : Dim) (pos : Pos) (p : Coord) (c : Color) : Pos := removeDead n (place pos p c) c.opp

theorem after_self : after n pos p c p = some c := removeDead_other (place_self _ _ _) (Color.ne_opp c)

theorem after_own {q : Coord} : after n pos p c q = some c ↔ place pos p c q = some c := by
  constructor
  · intro h
    rcases removeDead_sub (n := n) (pos := place pos p c) (c := c.opp) q with h' | h'
    · unfold after at h; rw [h'] at h; cases h
    · unfold after at h; rw [← h']; exact h
  · intro h; exact removeDead_other h (Color.ne_opp c)

theorem after_opp {q : Coord} (h : after n pos p c q = some c.opp) :
    q ≠ p ∧ pos q = some c.opp ∧ HasLiberty n (place pos p c) q := by
  have hqp : q ≠ p := by rintro rfl; rw [after_self] at h; exact some_ne_opp h
  unfold after removeDead at h
  split at h
  · cases h
  · rename_i h1
    have h2 : pos q = some c.opp := by rw [← h, place_ne hqp]
    refine ⟨hqp, h2, ?_⟩
    apply Classical.byContradiction
    intro h3; exact h1 ⟨h, h3⟩

theorem after_none_of {q : Coord} (h : pos q = none) (hq : q ≠ p) : after n pos p c q = none :=
  removeDead_none (by rw [place_ne hq, h])

/-- An opposing stone disappears iff `p` was the only liberty of its group (or it had none). -/
theorem captured_iff {q : Coord} (he : pos p = none) (hv : pos q = some c.opp) :
    after n pos p c q = none ↔ ∀ r, LibAt n pos q r → r = p := by
  have hqp : q ≠ p := by rintro rfl; rw [he] at hv; cases hv
  have hq : place pos p c q = some c.opp := by rw [place_ne hqp, hv]
  have hl := hasLiberty_place_opp (n := n) hqp he hv
  unfold after removeDead
  constructor
  · intro h r hr
    apply Classical.byContradiction
    intro hne
    rw [if_neg (fun h' => h'.2 (hl.2 ⟨r, hr, hne⟩)), hq] at h
    cases h
  · intro h
    have hnl : ¬ HasLiberty n (place pos p c) q := by
      intro h'
      obtain ⟨r, h1, h2⟩ := hl.1 h'
      exact h2 (h r h1)
    rw [if_pos ⟨hq, hnl⟩]

/-- What the position after captures shows. -/
theorem after_eq {q : Coord} (hq : q ≠ p) : after n pos p c q = pos q ∨
    (pos q = some c.opp ∧ after n pos p c q = none) := by
  rcases removeDead_sub (n := n) (pos := place pos p c) (c := c.opp) q with h' | h'
  · rcases color_cases (pos q) c with h | h | h
    · exact Or.inl (by rw [h]; exact h')
    · left
      have := (after_own (n := n)).2 ((place_ne (c := c) hq).trans h)
      rw [this, h]
    · exact Or.inr ⟨h, h'⟩
  · left; unfold after; rw [h', place_ne hq]

/-- A captured group touches the played stone. -/
theorem captured_adj {q : Coord} (hd : NoDead n pos) (hqb : OnBoard n q) (he : pos p = none) (hv : pos q = some c.opp)
    (hc : after n pos p c q = none) : ∃ s, Adj p s ∧ OnBoard n s ∧ pos s = some c.opp ∧ Linked n pos q s := by
  rw [captured_iff he hv] at hc
  obtain ⟨r, h1, h2, s, h3, h4⟩ := hasLiberty_iff_libAt.1 (hd q hqb (by rw [hv]; simp))
  have := hc r ⟨h1, h2, s, h3, h4⟩
  subst this
  exact ⟨s, adj_symm h4, linked_onBoard h3 hqb, by rw [linked_same h3, hv], h3⟩

theorem libAt_linked {q q' r : Coord} (hq : OnBoard n q) (h : Linked n pos q q') : LibAt n pos q r ↔ LibAt n pos q' r := by
  constructor
  · rintro ⟨a, b, x, d, e⟩; exact ⟨a, b, x, linked_trans (linked_symm hq h) d, e⟩
  · rintro ⟨a, b, x, d, e⟩; exact ⟨a, b, x, linked_trans h d, e⟩

theorem linked_after_own {q q' : Coord} (hq : OnBoard n q) (hv : place pos p c q = some c)
    (h : Linked n (place pos p c) q q') : Linked n (after n pos p c) q q' :=
  linked_removeDead hq (Or.inl (by rw [hv]; exact some_ne_opp)) h

theorem linked_of_after {q q' : Coord} (hv : after n pos p c q ≠ none) (h : Linked n (after n pos p c) q q') :
    Linked n (place pos p c) q q' := linked_of_sub (fun x => removeDead_sub x) hv h

/-- Groups of the mover other than the played one keep a liberty. -/
theorem own_lib {q : Coord} (hd : NoDead n pos) (hp : OnBoard n p) (he : pos p = none) (hq : OnBoard n q)
    (hv : after n pos p c q = some c) (hl : ¬ Linked n (after n pos p c) p q) : HasLiberty n (after n pos p c) q := by
  have hqp : q ≠ p := by rintro rfl; exact hl (.refl _)
  have hpl := after_own.1 hv
  have hv0 : pos q = some c := by rw [← hpl, place_ne hqp]
  obtain ⟨q', r, h1, h2, h3, h4⟩ := hd q hq (by rw [hv0]; simp)
  have hla : Linked n (after n pos p c) q q' := linked_after_own hq hpl (linked_place he (by rw [hv0]; simp) h1)
  by_cases hr : r = p
  · exfalso
    subst hr
    apply hl
    have hq' := linked_onBoard h1 hq
    have : after n pos r c q' = after n pos r c r := by rw [linked_same hla, hv, after_self]
    exact linked_trans (.step (.refl _) (adj_symm h2) hq' this) (linked_symm hq hla)
  · exact ⟨q', r, hla, h2, h3, after_none_of h4 hr⟩

theorem opp_lib {q : Coord} (hq : OnBoard n q) (hv : after n pos p c q = some c.opp) : HasLiberty n (after n pos p c) q :=
  hasLiberty_removeDead hq (after_opp hv).2.2

/-- On a position without dead groups, looking around the played stone is enough. -/
theorem captureAround_eq (hd : NoDead n pos) (he : pos p = none) :
    SameOn n (captureAround n (place pos p c) p c.opp) (after n pos p c) := by
  intro q hq
  unfold after captureAround removeDead
  by_cases h : place pos p c q = some c.opp ∧ ¬ HasLiberty n (place pos p c) q
  · rw [if_pos h, if_pos]
    refine ⟨h.1, h.2, ?_⟩
    have hqp : q ≠ p := by rintro rfl; have := h.1; rw [place_self] at this; exact some_ne_opp this
    have hv : pos q = some c.opp := by rw [← h.1, place_ne hqp]
    obtain ⟨s, a, b, d, e⟩ := captured_adj (c := c) hd hq he hv (by unfold after removeDead; rw [if_pos h])
    have hsp : s ≠ p := by rintro rfl; rw [he] at d; cases d
    exact ⟨s, a, b, by rw [place_ne hsp, d], linked_place he (by rw [d]; simp) (linked_symm hq e)⟩
  · rw [if_neg h, if_neg (fun h' => h ⟨h'.1, h'.2.1⟩)]

theorem removeGroupIfDead_congr {a b : Pos} (h : SameOn n a b) (hp : OnBoard n p) :
    SameOn n (removeGroupIfDead n a p) (removeGroupIfDead n b p) := by
  intro q hq
  unfold removeGroupIfDead
  have h1 : (Linked n a p q ∧ ¬ HasLiberty n a p) ↔ (Linked n b p q ∧ ¬ HasLiberty n b p) := by
    constructor
    · rintro ⟨x, y⟩; exact ⟨linked_congr h hp x, fun h' => y (hasLiberty_congr (SameOn.symm h) hp h')⟩
    · rintro ⟨x, y⟩; exact ⟨linked_congr (SameOn.symm h) hp x, fun h' => y (hasLiberty_congr h hp h')⟩
  by_cases h2 : Linked n a p q ∧ ¬ HasLiberty n a p
  · rw [if_pos h2, if_pos (h1.1 h2)]
  · rw [if_neg h2, if_neg (fun h' => h2 (h1.2 h')), h q hq]

/-- Local and global form of a move agree when no group is dead. -/
theorem playLocal_eq_play (s : Bool) (hd : NoDead n pos) (hp : OnBoard n p) (he : pos p = none) :
    SameOn n (playLocal n s pos p c) (Spec.play n s pos p c) := by
  have h1 := captureAround_eq (c := c) hd he
  cases s
  · exact h1
  · refine SameOn.trans (removeGroupIfDead_congr h1 hp) ?_
    show SameOn n _ (removeDead n (after n pos p c) c)
    intro q hq
    unfold removeGroupIfDead
    by_cases h : after n pos p c q = some c ∧ ¬ HasLiberty n (after n pos p c) q
    · have hl : Linked n (after n pos p c) p q := by
        apply Classical.byContradiction
        intro h'; exact h.2 (own_lib hd hp he hq h.1 h')
      rw [if_pos ⟨hl, fun h' => h.2 ((hasLiberty_linked hp hl).1 h')⟩]
      unfold removeDead; rw [if_pos h]
    · rw [if_neg]
      · unfold removeDead; rw [if_neg h]
      · rintro ⟨h1, h2⟩
        exact h ⟨by rw [linked_same h1, after_self], fun h' => h2 ((hasLiberty_linked hp h1).2 h')⟩

/-- Moves keep every group alive, unless suicide is committed where it is not removed. -/
theorem noDead_play (s : Bool) (hd : NoDead n pos) (hp : OnBoard n p) (he : pos p = none)
    (hs : s = true ∨ ¬ Suicide n pos p c) : NoDead n (Spec.play n s pos p c) := by
  have key : ∀ q, OnBoard n q → after n pos p c q ≠ none → HasLiberty n (after n pos p c) p ∨ after n pos p c q = some c.opp
      ∨ ¬ Linked n (after n pos p c) p q → HasLiberty n (after n pos p c) q := by
    intro q hq hv h
    rcases color_cases (after n pos p c q) c with h1 | h1 | h1
    · exact absurd h1 hv
    · by_cases hl : Linked n (after n pos p c) p q
      · rcases h with h | h | h
        · exact (hasLiberty_linked hp hl).1 h
        · rw [h1] at h; exact absurd h some_ne_opp
        · exact absurd hl h
      · exact own_lib hd hp he hq h1 hl
    · exact opp_lib hq h1
  cases s
  · rcases hs with hs | hs
    · cases hs
    · intro q hq hv
      exact key q hq hv (Or.inl (Classical.not_not.1 hs))
  · show NoDead n (removeDead n (after n pos p c) c)
    intro q hq hv
    have hv' : after n pos p c q ≠ none := fun h => hv (removeDead_none h)
    have : HasLiberty n (after n pos p c) q := by
      apply Classical.byContradiction
      intro h
      rcases color_cases (after n pos p c q) c with h1 | h1 | h1
      · exact hv' h1
      · apply hv; unfold removeDead; rw [if_pos ⟨h1, h⟩]
      · exact h (key q hq hv' (Or.inr (Or.inl h1)))
    exact hasLiberty_removeDead hq this

/-- Without suicide both variants of the rule give the position after captures. -/
theorem play_eq_after (s : Bool) (hd : NoDead n pos) (hp : OnBoard n p) (he : pos p = none)
    (hs : ¬ Suicide n pos p c) : SameOn n (Spec.play n s pos p c) (after n pos p c) := by
  cases s
  · intro q _; rfl
  · intro q hq
    show removeDead n (after n pos p c) c q = _
    unfold removeDead
    rw [if_neg]
    rintro ⟨h1, h2⟩
    by_cases hl : Linked n (after n pos p c) p q
    · exact h2 ((hasLiberty_linked hp hl).1 (Classical.not_not.1 hs))
    · exact h2 (own_lib hd hp he hq h1 hl)

/-- Suicide in terms of the position before the move. -/
theorem suicide_iff (hp : OnBoard n p) (he : pos p = none) :
    ¬ Suicide n pos p c ↔ (∃ r, Adj p r ∧ OnBoard n r ∧ pos r = none) ∨
      (∃ s r, Adj p s ∧ OnBoard n s ∧ pos s = some c ∧ LibAt n pos s r ∧ r ≠ p) ∨
      (∃ s, Adj p s ∧ OnBoard n s ∧ pos s = some c.opp ∧ ∀ r, LibAt n pos s r → r = p) ∨
      (∃ s q, Adj p s ∧ OnBoard n s ∧ pos s = some c ∧ ∃ q' , Linked n pos s q' ∧ Adj q' q ∧ OnBoard n q ∧
        pos q = some c.opp ∧ ∀ r, LibAt n pos q r → r = p) := by
  unfold Suicide
  rw [Classical.not_not]
  show HasLiberty n (after n pos p c) p ↔ _
  constructor
  · rintro ⟨q, r, h1, h2, h3, h4⟩
    have hpl := linked_of_after (by rw [after_self]; simp) h1
    have hrp : r ≠ p := by rintro rfl; rw [after_self] at h4; cases h4
    rcases after_eq (n := n) (pos := pos) (c := c) hrp with h5 | ⟨h5, _⟩
    · rw [h4] at h5
      by_cases hq : q = p
      · subst hq; exact Or.inl ⟨r, h2, h3, h5.symm⟩
      · obtain ⟨s, a, b, d, e⟩ := linked_place_from hpl hq
        exact Or.inr (Or.inl ⟨s, r, a, b, d, ⟨h3, h5.symm, q, e, h2⟩, hrp⟩)
    · have h6 := (captured_iff he h5).1 h4
      by_cases hq : q = p
      · subst hq; exact Or.inr (Or.inr (Or.inl ⟨r, h2, h3, h5, h6⟩))
      · obtain ⟨s, a, b, d, e⟩ := linked_place_from hpl hq
        exact Or.inr (Or.inr (Or.inr ⟨s, r, a, b, d, q, e, h2, h3, h5, h6⟩))
  · rintro (⟨r, a, b, d⟩ | ⟨s, r, a, b, d, ⟨e1, e2, q, e3, e4⟩, f⟩ | ⟨s, a, b, d, e⟩ | ⟨s, q, a, b, d, q', e1, e2, e3, e4, e5⟩)
    · have hrp : r ≠ p := by rintro rfl; exact adj_irrefl a
      exact ⟨p, r, .refl _, a, b, after_none_of d hrp⟩
    · have hsp : s ≠ p := by rintro rfl; exact adj_irrefl a
      have hs : place pos p c s = some c := by rw [place_ne hsp, d]
      have h1 : Linked n (after n pos p c) s q := linked_after_own b hs (linked_place he (by rw [d]; simp) e3)
      refine ⟨q, r, linked_trans (.step (.refl _) a b ?_) h1, e4, e1, after_none_of e2 f⟩
      rw [after_self]; exact after_own.2 hs
    · exact ⟨p, s, .refl _, a, b, (captured_iff he d).2 e⟩
    · have hsp : s ≠ p := by rintro rfl; exact adj_irrefl a
      have hs : place pos p c s = some c := by rw [place_ne hsp, d]
      have h1 : Linked n (after n pos p c) s q' := linked_after_own b hs (linked_place he (by rw [d]; simp) e1)
      refine ⟨q', q, linked_trans (.step (.refl _) a b ?_) h1, e2, e3, (captured_iff he e4).2 e5⟩
      rw [after_self]; exact after_own.2 hs

/-- Suicide on positions without dead groups: three local conditions. -/
theorem suicide_local (hd : NoDead n pos) (hp : OnBoard n p) (he : pos p = none) :
    ¬ Suicide n pos p c ↔ (∃ r, Adj p r ∧ OnBoard n r ∧ pos r = none) ∨
      (∃ s r, Adj p s ∧ OnBoard n s ∧ pos s = some c ∧ LibAt n pos s r ∧ r ≠ p) ∨
      (∃ s, Adj p s ∧ OnBoard n s ∧ pos s = some c.opp ∧ ∀ r, LibAt n pos s r → r = p) := by
  rw [suicide_iff hp he]
  constructor
  · rintro (h | h | h | ⟨s, q, a, b, d, q', e1, e2, e3, e4, e5⟩)
    · exact Or.inl h
    · exact Or.inr (Or.inl h)
    · exact Or.inr (Or.inr h)
    · obtain ⟨t, h1, h2, h3, h4⟩ := captured_adj hd e3 he e4 ((captured_iff he e4).2 e5)
      exact Or.inr (Or.inr ⟨t, h1, h2, h3, fun r hr => e5 r ((libAt_linked e3 h4).2 hr)⟩)
  · rintro (h | h | h)
    · exact Or.inl h
    · exact Or.inr (Or.inl h)
    · exact Or.inr (Or.inr (Or.inl h))

/-- Some opposing stone is captured iff a neighbouring opposing group has `p` as its only liberty. -/
theorem capture_iff (hd : NoDead n pos) (he : pos p = none) :
    (∃ q, OnBoard n q ∧ pos q = some c.opp ∧ after n pos p c q = none) ↔
      ∃ s, Adj p s ∧ OnBoard n s ∧ pos s = some c.opp ∧ ∀ r, LibAt n pos s r → r = p := by
  constructor
  · rintro ⟨q, h1, h2, h3⟩
    obtain ⟨t, a, b, d, e⟩ := captured_adj hd h1 he h2 h3
    exact ⟨t, a, b, d, fun r hr => (captured_iff he h2).1 h3 r ((libAt_linked h1 e).2 hr)⟩
  · rintro ⟨s, _, b, d, e⟩
    exact ⟨s, b, d, (captured_iff he d).2 e⟩

/-- A capturing move is never suicide. -/
theorem not_suicide_of_capture (hd : NoDead n pos) (hp : OnBoard n p) (he : pos p = none)
    (h : ∃ q, OnBoard n q ∧ pos q = some c.opp ∧ after n pos p c q = none) : ¬ Suicide n pos p c := by
  rw [suicide_local hd hp he]
  exact Or.inr (Or.inr ((capture_iff hd he).1 h))

theorem noDead_after (hd : NoDead n pos) (hp : OnBoard n p) (he : pos p = none) (hs : ¬ Suicide n pos p c) :
    NoDead n (after n pos p c) := noDead_play false hd hp he (Or.inr hs)

/-- After capturing exactly one stone all its neighbours are the capturer's. -/
theorem neighbours_of_captured {q : Coord} (hq : OnBoard n q) (he : pos p = none)
    (hcap : ∀ r, OnBoard n r → ((pos r = some c.opp ∧ after n pos p c r = none) ↔ r = q)) {s : Coord} (hs : Adj q s)
    (hsb : OnBoard n s) : after n pos p c s = some c := by
  obtain ⟨h1, h2⟩ := (hcap q hq).2 rfl
  have hqp : q ≠ p := by rintro rfl; rw [he] at h1; cases h1
  have h3 := (captured_iff he h1).1 h2
  have hsq : s ≠ q := by rintro rfl; exact adj_irrefl hs
  apply after_own.2
  by_cases hsp : s = p
  · subst hsp; exact place_self _ _ _
  rw [place_ne hsp]
  rcases color_cases (pos s) c with h | h | h
  · exact absurd (h3 s ⟨hsb, h, q, .refl _, hs⟩) hsp
  · exact h
  · exfalso
    apply hsq
    have hl : Linked n pos q s := .step (.refl _) hs hsb (by rw [h, h1])
    refine (hcap s hsb).1 ⟨h, (captured_iff he h).2 fun r hr => h3 r ((libAt_linked hq hl).2 hr)⟩

/-- The ko situation: a move at `m` captured something, and the reply at `p` is not suicide. The reply restores the
position before `m` iff exactly `p` was captured and no neighbouring group in atari has more than one stone. -/
theorem ko_iff {m : Coord} (hd : NoDead n pos) (hm : OnBoard n m) (hem : pos m = none) (hp : OnBoard n p)
    (hep : after n pos m c p = none) (hcap : ∃ q, OnBoard n q ∧ pos q = some c.opp ∧ after n pos m c q = none)
    (hns : ¬ Suicide n (after n pos m c) p c.opp) :
    SameOn n (after n (after n pos m c) p c.opp) pos ↔
      (∀ r, OnBoard n r → ((pos r = some c.opp ∧ after n pos m c r = none) ↔ r = p)) ∧
      (∀ s, Adj p s → OnBoard n s → after n pos m c s ≠ none → (∀ r, LibAt n (after n pos m c) s r → r = p) →
        ∀ t, Linked n (after n pos m c) s t → t = s) := by
  have hd1 : NoDead n (after n pos m c) := noDead_after hd hm hem (not_suicide_of_capture hd hm hem hcap)
  generalize ha : after n pos m c = pos1 at *
  have hmp : m ≠ p := by rintro rfl; rw [← ha, after_self] at hep; cases hep
  have hm1 : pos1 m = some c := by rw [← ha, after_self]
  constructor
  · intro hsame
    have hset : ∀ r, OnBoard n r → ((pos r = some c.opp ∧ pos1 r = none) → r = p) := by
      rintro r hr ⟨h1, h2⟩
      apply Classical.byContradiction
      intro hne
      have := hsame r hr
      rw [after_none_of h2 hne, h1] at this; cases this
    have hset' : ∀ r, OnBoard n r → ((pos r = some c.opp ∧ pos1 r = none) ↔ r = p) := by
      intro r hr
      refine ⟨hset r hr, ?_⟩
      rintro rfl
      obtain ⟨q, h1, h2, h3⟩ := hcap
      have := hset q h1 ⟨h2, h3⟩
      subst this; exact ⟨h2, h3⟩
    refine ⟨hset', ?_⟩
    intro s hs hsb hsv hat t ht
    have hsc : pos1 s = some c := by
      rw [← ha]
      exact neighbours_of_captured hp hem (by rw [ha]; exact hset') hs hsb
    have key : ∀ x, OnBoard n x → Linked n pos1 s x → x = m := by
      intro x hx hl
      have hxc : pos1 x = some c.opp.opp := by rw [linked_same hl, hsc, Color.opp_opp]
      have h2 : after n pos1 p c.opp x = none :=
        (captured_iff hep hxc).2 fun r hr => hat r ((libAt_linked hsb hl).2 hr)
      have h3 := hsame x hx
      rw [h2] at h3
      apply Classical.byContradiction
      intro hne
      have := after_none_of (n := n) (c := c) h3.symm hne
      rw [ha, hxc] at this; cases this
    rw [key s hsb (.refl _), key t (linked_onBoard ht hsb) ht]
  · rintro ⟨hset, hone⟩
    have hnb : ∀ s, Adj p s → OnBoard n s → pos1 s = some c := by
      intro s hs hsb
      rw [← ha]
      exact neighbours_of_captured hp hem (by rw [ha]; exact hset) hs hsb
    obtain ⟨hp0, _⟩ := (hset p hp).2 rfl
    -- a neighbour in atari is the stone just played
    have hatari : ∀ s, Adj p s → OnBoard n s → (∀ r, LibAt n pos1 s r → r = p) → s = m := by
      intro s hs hsb hat
      apply Classical.byContradiction
      intro hsm
      have hs1 := hnb s hs hsb
      have hpl : place pos m c s = some c := by rw [← ha] at hs1; exact after_own.1 hs1
      have hs0 : pos s = some c := by rw [← hpl, place_ne hsm]
      obtain ⟨q', r, h1, h2, h3, h4⟩ := hd s hsb (by rw [hs0]; simp)
      have hl : Linked n pos1 s q' := by
        rw [← ha]; exact linked_after_own hsb hpl (linked_place hem (by rw [hs0]; simp) h1)
      have hsing := hone s hs hsb (by rw [hs1]; simp) hat
      have hq' := hsing q' hl
      subst hq'
      by_cases hrm : r = m
      · subst hrm
        exact hsm (hsing r (.step (.refl _) h2 h3 (by rw [hm1, hs1]))).symm
      · have h5 : pos1 r = none := by rw [← ha]; exact after_none_of h4 hrm
        have := hat r ⟨h3, h5, q', .refl _, h2⟩
        subst this
        rw [hp0] at h4; cases h4
    -- the stone just played is in atari
    have hsome : ∃ s, Adj p s ∧ OnBoard n s ∧ pos1 s = some c.opp.opp ∧ ∀ r, LibAt n pos1 s r → r = p := by
      rcases (suicide_local hd1 hp hep).1 hns with ⟨r, a, b, d⟩ | ⟨s, r, a, b, d, _⟩ | h
      · rw [hnb r a b] at d; cases d
      · rw [hnb s a b] at d; exact absurd d some_ne_opp
      · exact h
    obtain ⟨s0, a0, b0, c0, d0⟩ := hsome
    have hs0 := hatari s0 a0 b0 d0
    subst hs0
    have hm2 : after n pos1 p c.opp s0 = none := (captured_iff hep c0).2 d0
    intro q hq
    by_cases hqp : q = p
    · subst hqp; rw [after_self, hp0]
    by_cases hqm : q = s0
    · subst hqm; rw [hm2, hem]
    have h1 : pos1 q = pos q := by
      rcases after_eq (n := n) (pos := pos) (c := c) hqm with h | ⟨h, h'⟩
      · rw [ha] at h; exact h
      · rw [ha] at h'; exact absurd ((hset q hq).1 ⟨h, h'⟩) hqp
    rcases after_eq (n := n) (pos := pos1) (c := c.opp) hqp with h | ⟨h, h'⟩
    · rw [h, h1]
    · exfalso
      obtain ⟨t, a, b, d, e⟩ := captured_adj hd1 hq hep h h'
      have hta : ∀ r, LibAt n pos1 t r → r = p := fun r hr => (captured_iff hep h).1 h' r ((libAt_linked hq e).2 hr)
      have htm := hatari t a b hta
      have := hone t a b (by rw [d]; simp) hta q (linked_symm hq e)
      exact hqm (this.trans htm)

/-- Two plies never restore the position when the first captured nothing. -/
theorem no_two_ply {m : Coord} (hp : OnBoard n p)
    (hep : after n pos m c p = none) (hcap : ¬ ∃ q, OnBoard n q ∧ pos q = some c.opp ∧ after n pos m c q = none) :
    ¬ SameOn n (after n (after n pos m c) p c.opp) pos := by
  intro h
  have h1 := h p hp
  rw [after_self] at h1
  exact hcap ⟨p, hp, h1.symm, hep⟩

end
end Model
