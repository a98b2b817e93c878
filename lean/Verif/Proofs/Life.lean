import Verif.Spec.Life
import Verif.Proofs.Congr
/-!
# Living stones stay: on positions only
-/

namespace Model
open Spec (OnBoard Adj Linked HasLiberty NoDead place SameOn Pos removeDead Lives Vital)

variable {n : Dim} {pos : Pos} {c : Color} {sa : Bool} {X : Coord → Prop} {Rs : (Coord → Prop) → Prop}

/-- A group with a stone in a region lies in the region. -/
theorem _root_.Spec.Lives.linked (h : Lives n pos c sa X Rs) {R : Coord → Prop} (hR : Rs R) {q t : Coord} (hq : R q) (hl : Linked n pos q t) :
    R t := by
  induction hl with
  | refl => exact hq
  | @step t u hl ha ho he ih =>
    rcases h.border R hR t ih u ha ho with h' | h'
    · exact h'
    · exact absurd (by rw [← he]; exact (h.stones u h').2) (h.inside R hR t ih).2

/-- A stone in a region has a liberty in the region. -/
theorem _root_.Spec.Lives.liberty (h : Lives n pos c sa X Rs) (hd : NoDead n pos) {R : Coord → Prop} (hR : Rs R) {q : Coord} (hq : R q)
    (hv : pos q ≠ none) : ∃ t r, Linked n pos q t ∧ Adj t r ∧ OnBoard n r ∧ pos r = none ∧ R r := by
  obtain ⟨t, r, h1, h2, h3, h4⟩ := hd q (h.inside R hR q hq).1 hv
  rcases h.border R hR t (h.linked hR hq h1) r h2 h3 with h' | h'
  · exact ⟨t, r, h1, h2, h3, h4, h'⟩
  · rw [(h.stones r h').2] at h4; cases h4

theorem _root_.Spec.Lives.empty (h : Lives n pos c sa X Rs) (hd : NoDead n pos) {R : Coord → Prop} (hR : Rs R) (hne : ∃ q, R q) :
    ∃ q, R q ∧ pos q = none := by
  obtain ⟨q, hq⟩ := hne
  by_cases hv : pos q = none
  · exact ⟨q, hq, hv⟩
  · obtain ⟨_, r, _, _, _, h1, h2⟩ := h.liberty hd hR hq hv
    exact ⟨r, h2, h1⟩

/-- After a stone is put the living stones have liberties. -/
theorem _root_.Spec.Lives.place (h : Lives n pos c sa X Rs) (hd : NoDead n pos) {p : Coord} (he : pos p = none) (d : Color)
    {x : Coord} (hx : X x) : HasLiberty n (Spec.place pos p d) x := by
  have key : ∀ R, Rs R → (∃ q, R q) → Vital n pos sa R x → ¬ R p → HasLiberty n (Spec.place pos p d) x := by
    intro R hR hne hv hnp
    obtain ⟨q, hq, he'⟩ := h.empty hd hR hne
    obtain ⟨s, h1, h2⟩ := hv q hq (Or.inl he')
    refine ⟨s, q, linked_place he (by rw [(h.stones x hx).2]; simp) h2, adj_symm h1, (h.inside R hR q hq).1, ?_⟩
    rw [place_ne (fun h => hnp (by rw [← h]; exact hq)), he']
  obtain ⟨R, R', h1, h2, h3, h4, h5, h6, h7⟩ := h.two x hx
  by_cases hR : R p
  · exact key R' h2 h4 h7 (h5 p hR)
  · exact key R h1 h3 h6 hR

/-- A move that is not by `c` into a region keeps the stones alive. -/
theorem _root_.Spec.Lives.play (h : Lives n pos c sa X Rs) (hd : NoDead n pos) {p : Coord} (he : pos p = none) {d : Color}
    (hp : d = c → ∀ R, Rs R → ¬ R p) : Lives n (Spec.play n sa pos p d) c sa X Rs ∧
      ∀ x q, X x → Linked n pos x q → Linked n (Spec.play n sa pos p d) x q := by
  -- what holds for the living stones after the stone is put, and is kept by removals
  let K : Pos → Prop := fun b => (∀ x, X x → b x = some c ∧ HasLiberty n b x) ∧
    (∀ x q, X x → Linked n pos x q → Linked n b x q) ∧ (∀ R, Rs R → ∀ q, R q → b q ≠ some c)
  have hA : K (Spec.place pos p d) := by
    refine ⟨fun x hx => ⟨?_, h.place hd he d hx⟩, fun x q hx hl => linked_place he (by rw [(h.stones x hx).2]; simp) hl, ?_⟩
    · rw [place_ne, (h.stones x hx).2]
      rintro rfl
      rw [(h.stones x hx).2] at he; cases he
    · intro R hR q hq
      by_cases hqp : q = p
      · subst hqp
        rw [place_self]
        exact fun h' => hp (Option.some.inj h') R hR hq
      · rw [place_ne hqp]; exact (h.inside R hR q hq).2
  have hK : ∀ b e, K b → K (removeDead n b e) := by
    rintro b e ⟨h1, h2, h3⟩
    refine ⟨fun x hx => ⟨?_, hasLiberty_removeDead (h.stones x hx).1 (h1 x hx).2⟩,
      fun x q hx hl => linked_removeDead (h.stones x hx).1 (Or.inr (h1 x hx).2) (h2 x q hx hl), ?_⟩
    · unfold removeDead
      rw [if_neg (fun h' => h'.2 (h1 x hx).2)]
      exact (h1 x hx).1
    · intro R hR q hq
      rcases removeDead_sub (n := n) (pos := b) (c := e) q with h' | h' <;> rw [h']
      · simp
      · exact h3 R hR q hq
  have hB := hK _ d.opp hA
  have hC : K (Spec.play n sa pos p d) := by
    unfold Spec.play
    cases sa
    · exact hB
    · exact hK _ _ hB
  obtain ⟨h1, h2, h3⟩ := hC
  -- without suicide no point of a region becomes empty
  have hV : ∀ R, Rs R → ∀ q, R q → (Spec.play n sa pos p d q = none ∨ sa = true) → pos q = none ∨ sa = true := by
    intro R hR q hq hor
    cases sa with
    | true => exact Or.inr rfl
    | false =>
      refine Or.inl (Classical.byContradiction fun hv => ?_)
      rcases hor with hor | hor
      swap
      · cases hor
      have hqp : q ≠ p := fun h' => hv (by rw [h', he])
      have hcol : pos q = some c.opp := by
        rcases color_cases (pos q) c with h' | h' | h'
        · exact absurd h' hv
        · exact absurd h' (h.inside R hR q hq).2
        · exact h'
      have hA' : Spec.place pos p d q = some c.opp := by rw [place_ne hqp, hcol]
      have : removeDead n (Spec.place pos p d) d.opp q = some c.opp := by
        by_cases hdc : d = c
        · subst hdc
          obtain ⟨t, r, l1, l2, l3, l4, l5⟩ := h.liberty hd hR hq hv
          unfold removeDead
          rw [if_neg, hA']
          rintro ⟨_, hn⟩
          refine hn ⟨t, r, linked_place he hv l1, l2, l3, ?_⟩
          rw [place_ne, l4]
          rintro rfl
          exact hp rfl R hR l5
        · exact removeDead_other hA' (fun h' => hdc (by rw [← Color.opp_opp c, h', Color.opp_opp]))
      unfold Spec.play at hor
      simp only [Bool.false_eq_true, if_false] at hor
      rw [this] at hor
      cases hor
  refine ⟨⟨fun x hx => ⟨(h.stones x hx).1, (h1 x hx).1⟩, fun R hR q hq => ⟨(h.inside R hR q hq).1, h3 R hR q hq⟩, h.border, ?_⟩, h2⟩
  intro x hx
  obtain ⟨R, R', r1, r2, r3, r4, r5, r6, r7⟩ := h.two x hx
  refine ⟨R, R', r1, r2, r3, r4, r5, fun q hq ho => ?_, fun q hq ho => ?_⟩
  · obtain ⟨s, s1, s2⟩ := r6 q hq (hV R r1 q hq ho)
    exact ⟨s, s1, h2 x s hx s2⟩
  · obtain ⟨s, s1, s2⟩ := r7 q hq (hV R' r2 q hq ho)
    exact ⟨s, s1, h2 x s hx s2⟩

theorem _root_.Spec.Lives.congr {a b : Pos} (hab : SameOn n a b) (h : Lives n a c sa X Rs) : Lives n b c sa X Rs := by
  have vit : ∀ R x, Rs R → X x → Vital n a sa R x → Vital n b sa R x := by
    intro R x hR hx hv q hq ho
    rw [← hab q (h.inside R hR q hq).1] at ho
    obtain ⟨s, s1, s2⟩ := hv q hq ho
    exact ⟨s, s1, linked_congr hab (h.stones x hx).1 s2⟩
  refine ⟨fun x hx => ⟨(h.stones x hx).1, by rw [← hab x (h.stones x hx).1]; exact (h.stones x hx).2⟩,
    fun R hR q hq => ⟨(h.inside R hR q hq).1, by rw [← hab q (h.inside R hR q hq).1]; exact (h.inside R hR q hq).2⟩, h.border, ?_⟩
  intro x hx
  obtain ⟨R, R', r1, r2, r3, r4, r5, r6, r7⟩ := h.two x hx
  exact ⟨R, R', r1, r2, r3, r4, r5, vit R x r1 hx r6, vit R' x r2 hx r7⟩

/-- Two eyes are two regions. -/
theorem _root_.Spec.TwoEyes.lives {s p q : Coord} (h : Spec.TwoEyes n pos c s p q) :
    Lives n pos c sa (fun x => Linked n pos s x) (fun R => R = (· = p) ∨ R = (· = q)) := by
  obtain ⟨hs, hv, hpq, hp, hq⟩ := h
  have nb : ∀ e, Spec.EyeOf n pos s e → ∃ t, Adj e t ∧ OnBoard n t := by
    rintro e ⟨⟨h1, h2⟩, h3, _⟩
    have hne : e ≠ s := by rintro rfl; rw [hv] at h3; cases h3
    obtain ⟨e1, e2⟩ := e
    obtain ⟨s1, s2⟩ := s
    obtain ⟨hs1, hs2⟩ := hs
    dsimp only at h1 h2 hs1 hs2
    by_cases h' : e1 = s1
    · have : e2 ≠ s2 := fun h'' => hne (by rw [h', h''])
      by_cases hlt : e2 < s2
      · exact ⟨(e1, e2 + 1), by unfold Adj; dsimp only; omega, h1, by show e2 + 1 < n.w; omega⟩
      · exact ⟨(e1, e2 - 1), by unfold Adj; dsimp only; omega, h1, by show e2 - 1 < n.w; omega⟩
    · by_cases hlt : e1 < s1
      · exact ⟨(e1 + 1, e2), by unfold Adj; dsimp only; omega, by show e1 + 1 < n.h; omega, h2⟩
      · exact ⟨(e1 - 1, e2), by unfold Adj; dsimp only; omega, by show e1 - 1 < n.h; omega, h2⟩
  have vit : ∀ e, Spec.EyeOf n pos s e → ∀ x, Linked n pos s x → Vital n pos sa (· = e) x := by
    rintro e he x hx _ rfl _
    obtain ⟨t, h1, h2⟩ := nb _ he
    exact ⟨t, h1, linked_trans (linked_symm hs hx) (he.2.2 t h1 h2)⟩
  refine ⟨fun x hx => ⟨linked_onBoard hx hs, by rw [linked_same hx, hv]⟩, ?_, ?_, ?_⟩
  · rintro R (rfl | rfl) e rfl
    · exact ⟨hp.1, by rw [hp.2.1]; simp⟩
    · exact ⟨hq.1, by rw [hq.2.1]; simp⟩
  · rintro R (rfl | rfl) e rfl r ha ho
    · exact Or.inr (hp.2.2 r ha ho)
    · exact Or.inr (hq.2.2 r ha ho)
  · intro x hx
    exact ⟨_, _, Or.inl rfl, Or.inr rfl, ⟨p, rfl⟩, ⟨q, rfl⟩, by rintro _ rfl; exact hpq, vit p hp x hx, vit q hq x hx⟩

end Model
