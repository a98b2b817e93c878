import Verif.Proofs.Life
/-!
# Stones outside Benson's criterion: the next move of the attack, on positions only
-/

namespace Model
open Spec (OnBoard Adj Linked HasLiberty NoDead place SameOn Pos removeDead Lives Vital)

variable {n : Dim} {pos : Pos} {c d : Color}

/-- The position with only the stones of `d`, the other points all alike. -/
def onlyStones (pos : Pos) (d : Color) : Pos := fun r => if pos r = some d then some d else none

theorem onlyStones_iff {r : Coord} : onlyStones pos d r = none ↔ pos r ≠ some d := by
  unfold onlyStones; split <;> simp_all

/-- The points reached from `p` without crossing a stone of `d`. -/
def regionOf (n : Dim) (pos : Pos) (d : Color) (p : Coord) : Coord → Prop := Linked n (onlyStones pos d) p

theorem regionOf_spec {p q : Coord} (hp : OnBoard n p) (hv : pos p ≠ some d) (h : regionOf n pos d p q) :
    OnBoard n q ∧ pos q ≠ some d :=
  ⟨linked_onBoard h hp, onlyStones_iff.1 ((linked_same h).trans (onlyStones_iff.2 hv))⟩

theorem regionOf_step {p q r : Coord} (hp : OnBoard n p) (hv : pos p ≠ some d) (h : regionOf n pos d p q) (ha : Adj q r)
    (hr : OnBoard n r) (hvr : pos r ≠ some d) : regionOf n pos d p r :=
  .step h ha hr (by rw [onlyStones_iff.2 hvr, onlyStones_iff.2 (regionOf_spec hp hv h).2])

/-- The group of `t` has at most one vital region. -/
def AtMostOne (n : Dim) (pos : Pos) (sa : Bool) (d : Color) (t : Coord) : Prop :=
  ∀ p p', OnBoard n p → OnBoard n p' → pos p ≠ some d → pos p' ≠ some d → Vital n pos sa (regionOf n pos d p) t →
    Vital n pos sa (regionOf n pos d p') t → ∃ q, regionOf n pos d p q ∧ regionOf n pos d p' q

/-- Unless all stones of `d` live, some group has at most one vital region. -/
theorem exists_atMostOne {sa : Bool} {x : Coord} (hx : OnBoard n x) (hv : pos x = some d)
    (hno : ∀ X Rs, Lives n pos d sa X Rs → ¬ X x) : ∃ t, OnBoard n t ∧ pos t = some d ∧ AtMostOne n pos sa d t := by
  apply Classical.byContradiction
  intro hc
  have hc' : ∀ t, OnBoard n t → pos t = some d → ¬ AtMostOne n pos sa d t := fun t h1 h2 h3 => hc ⟨t, h1, h2, h3⟩
  refine hno (fun y => OnBoard n y ∧ pos y = some d)
    (fun R => ∃ p, OnBoard n p ∧ pos p ≠ some d ∧ R = regionOf n pos d p) ⟨fun _ h => h, ?_, ?_, ?_⟩ ⟨hx, hv⟩
  · rintro _ ⟨p, h1, h2, rfl⟩ q hq; exact regionOf_spec h1 h2 hq
  · rintro _ ⟨p, h1, h2, rfl⟩ q hq r ha hr
    by_cases h : pos r = some d
    · exact Or.inr ⟨hr, h⟩
    · exact Or.inl (regionOf_step h1 h2 hq ha hr h)
  · rintro y ⟨h1, h2⟩
    have := hc' y h1 h2
    unfold AtMostOne at this
    simp only [not_forall, not_exists, not_and] at this
    obtain ⟨p, p', a1, a2, a3, a4, a5, a6, a7⟩ := this
    exact ⟨_, _, ⟨p, a1, a3, rfl⟩, ⟨p', a2, a4, rfl⟩, ⟨p, .refl _⟩, ⟨p', .refl _⟩, a7, a5, a6⟩

/-- A stone played into a region with another empty point has a liberty. -/
theorem region_liberty {p e : Coord} (he : pos e = none) (hne : e ≠ p)
    (h : regionOf n pos c.opp p e) (hp : pos p = none) : HasLiberty n (place pos p c) p := by
  have key : ∀ q, regionOf n pos c.opp p q → HasLiberty n (place pos p c) p ∨ Linked n (place pos p c) p q := by
    intro q hq
    induction hq with
    | refl => exact Or.inr (.refl _)
    | @step q r hq ha hr hs ih =>
      rcases ih with ih | ih
      · exact Or.inl ih
      have hrv : pos r ≠ some c.opp := by
        refine onlyStones_iff.1 ((linked_same (.step hq ha hr hs)).trans (onlyStones_iff.2 ?_))
        rw [hp]; simp
      by_cases hrp : r = p
      · subst hrp; exact Or.inr (.refl _)
      rcases color_cases (pos r) c with h' | h' | h'
      · exact Or.inl ⟨q, r, ih, ha, hr, by rw [place_ne hrp, h']⟩
      · exact Or.inr (.step ih ha hr (by rw [place_ne hrp, h', linked_same ih, place_self]))
      · exact absurd h' hrv
  rcases key e h with h' | h'
  · exact h'
  · have := linked_same h'
    rw [place_self, place_ne hne, he] at this
    cases this

/-- Against a group with at most one vital region there is a move on one of its liberties that is no suicide. -/
theorem attack_move (hd : NoDead n pos) {t : Coord} (ht : OnBoard n t) (hv : pos t = some c.opp) (hw : AtMostOne n pos false c.opp t) :
    ∃ p, LibAt n pos t p ∧ HasLiberty n (after n pos p c) p := by
  obtain ⟨p0, hp0⟩ := hasLiberty_iff_libAt.1 (hd t ht (by rw [hv]; simp))
  by_cases hone : ∀ r, LibAt n pos t r → r = p0
  · refine ⟨p0, hp0, ?_⟩
    obtain ⟨h1, h2, s, h3, h4⟩ := hp0
    have hs : after n pos p0 c s = none :=
      (captured_iff h2 (by rw [linked_same h3, hv])).2 fun r hr => hone r ((libAt_linked ht h3).2 hr)
    exact ⟨p0, s, .refl _, adj_symm h4, linked_onBoard h3 ht, hs⟩
  simp only [not_forall] at hone
  obtain ⟨p1, hp1, hne⟩ := hone
  have nonvital : ∀ p, LibAt n pos t p → ¬ Vital n pos false (regionOf n pos c.opp p) t →
      ∃ p, LibAt n pos t p ∧ HasLiberty n (after n pos p c) p := by
    intro p hp hnv
    unfold Vital at hnv
    simp only [not_forall] at hnv
    obtain ⟨e, h1, h2, h3⟩ := hnv
    have he : pos e = none := by rcases h2 with h | h; exact h; cases h
    refine ⟨p, hp, hasLiberty_removeDead hp.1 (region_liberty he ?_ h1 hp.2.1)⟩
    rintro rfl
    obtain ⟨_, _, s, h4, h5⟩ := hp
    exact h3 ⟨s, adj_symm h5, h4⟩
  by_cases hv0 : Vital n pos false (regionOf n pos c.opp p0) t
  swap
  · exact nonvital p0 hp0 hv0
  by_cases hv1 : Vital n pos false (regionOf n pos c.opp p1) t
  swap
  · exact nonvital p1 hp1 hv1
  obtain ⟨q, h0, h1⟩ := hw p0 p1 hp0.1 hp1.1 (by rw [hp0.2.1]; simp) (by rw [hp1.2.1]; simp) hv0 hv1
  refine ⟨p0, hp0, hasLiberty_removeDead hp0.1 (region_liberty hp1.2.1 hne ?_ hp0.2.1)⟩
  exact linked_trans h0 (linked_symm hp1.1 h1)

/-- Stones that live after such a move lived before it. -/
theorem lives_before {t p : Coord} (ht : OnBoard n t) (hw : AtMostOne n pos false c.opp t)
    (hp : LibAt n pos t p) (hv : pos t = some c.opp) {X : Coord → Prop} {Rs : (Coord → Prop) → Prop}
    (h : Lives n (after n pos p c) c.opp false X Rs) :
    Lives n pos c.opp false X (fun R => Rs R ∧ ∀ q, R q → after n pos p c q = pos q) := by
  obtain ⟨hpo, hpe, s, hts, hsp⟩ := hp
  have back : ∀ {x q}, X x → Linked n (after n pos p c) x q → Linked n pos x q := by
    intro x q hx hl
    have hxv := (h.stones x hx).2
    have h1 := linked_of_after (by rw [hxv]; simp) hl
    exact linked_place_opp (by rw [place_ne (after_opp hxv).1, (after_opp hxv).2.1]) h1
  -- no point of a vital region was taken
  have taken : ∀ {R x q}, Rs R → X x → Vital n (after n pos p c) false R x → R q → pos q = some c.opp →
      after n pos p c q ≠ none := by
    intro R x q hR hx hvt hq hqv hqn
    obtain ⟨u, h1, h2⟩ := hvt q hq (Or.inl hqn)
    have hxb := (h.stones x hx).1
    have huv : after n pos p c u = some c.opp := by rw [linked_same h2, (h.stones x hx).2]
    have hub := linked_onBoard h2 hxb
    have huv' := (after_opp huv).2.1
    have hqb := (h.inside R hR q hq).1
    have hlink : Linked n pos q u := .step (.refl _) h1 hub (by rw [huv', hqv])
    have : after n pos p c u = none := by
      rw [captured_iff hpe hqv] at hqn
      exact (captured_iff hpe huv').2 fun r hr => hqn r ((libAt_linked hqb hlink).2 hr)
    rw [huv] at this; cases this
  have hsb := linked_onBoard hts ht
  have hsv : pos s = some c.opp := by rw [linked_same hts, hv]
  -- no vital region contains the point of the move
  have away : ∀ {R x}, Rs R → X x → Vital n (after n pos p c) false R x → ¬ R p := by
    intro R x hR hx hvt hRp
    rcases h.border R hR p hRp s (adj_symm hsp) hsb with h' | h'
    · have hsn : after n pos p c s ≠ none := taken hR hx hvt h' hsv
      rcases after_eq (n := n) (pos := pos) (c := c) (p := p) (q := s) (by rintro rfl; rw [hpe] at hsv; cases hsv) with h2 | h2
      · exact (h.inside R hR s h').2 (h2.trans hsv)
      · exact hsn h2.2
    · obtain ⟨R1, R2, hR1, hR2, ⟨a1, ha1⟩, ⟨a2, ha2⟩, hdis, hv1, hv2⟩ := h.two s h'
      have open_ : ∀ {R a}, Rs R → Vital n (after n pos p c) false R s → R a → pos a ≠ some c.opp := by
        intro R a hR hvt ha hav
        have hne := taken hR h' hvt ha hav
        rcases after_eq (n := n) (pos := pos) (c := c) (p := p) (q := a) (by rintro rfl; rw [hpe] at hav; cases hav) with h2 | h2
        · exact (h.inside R hR a ha).2 (h2.trans hav)
        · exact hne h2.2
      have sub : ∀ {R a}, Rs R → R a → ∀ q, regionOf n pos c.opp a q → pos a ≠ some c.opp → R q := by
        intro R a hR ha q hq hav
        induction hq with
        | refl => exact ha
        | @step q r hq hadj hr hs ih =>
          rcases h.border R hR q ih r hadj hr with h2 | h2
          · exact h2
          · have h3 := (h.stones r h2).2
            have h4 := onlyStones_iff.1 ((linked_same (.step hq hadj hr hs)).trans (onlyStones_iff.2 hav))
            exact absurd (after_opp h3).2.1 h4
      have vit : ∀ {R a}, Rs R → R a → Vital n (after n pos p c) false R s → Vital n pos false (regionOf n pos c.opp a) t := by
        intro R a hR ha hvt q hq hqe
        have hqe : pos q = none := by rcases hqe with h2 | h2; exact h2; cases h2
        by_cases hqp : q = p
        · subst hqp; exact ⟨s, adj_symm hsp, hts⟩
        · obtain ⟨u, h1, h2⟩ := hvt q (sub hR ha q hq (open_ hR hvt ha)) (Or.inl (after_none_of hqe hqp))
          exact ⟨u, h1, linked_trans hts (back h' h2)⟩
      obtain ⟨q, h1, h2⟩ := hw a1 a2 (h.inside R1 hR1 a1 ha1).1 (h.inside R2 hR2 a2 ha2).1 (open_ hR1 hv1 ha1) (open_ hR2 hv2 ha2)
        (vit hR1 ha1 hv1) (vit hR2 ha2 hv2)
      exact hdis q (sub hR1 ha1 q h1 (open_ hR1 hv1 ha1)) (sub hR2 ha2 q h2 (open_ hR2 hv2 ha2))
  have same : ∀ {R x}, Rs R → X x → Vital n (after n pos p c) false R x → ∀ q, R q → after n pos p c q = pos q := by
    intro R x hR hx hvt q hq
    rcases after_eq (n := n) (pos := pos) (c := c) (p := p) (q := q)
      (by rintro rfl; exact away hR hx hvt hq) with h2 | h2
    · exact h2
    · exact absurd h2.2 (taken hR hx hvt hq h2.1)
  refine ⟨fun x hx => ⟨(h.stones x hx).1, (after_opp (h.stones x hx).2).2.1⟩, ?_, ?_, ?_⟩
  · rintro R ⟨hR, he⟩ q hq; exact ⟨(h.inside R hR q hq).1, by rw [← he q hq]; exact (h.inside R hR q hq).2⟩
  · rintro R ⟨hR, _⟩ q hq r ha hr; exact h.border R hR q hq r ha hr
  · intro x hx
    obtain ⟨R1, R2, hR1, hR2, h1, h2, hdis, hv1, hv2⟩ := h.two x hx
    have tr : ∀ {R}, Rs R → Vital n (after n pos p c) false R x → Vital n pos false R x := by
      intro R hR hvt q hq hqe
      obtain ⟨u, h1, h2⟩ := hvt q hq (by rw [same hR hx hvt q hq]; exact hqe)
      exact ⟨u, h1, back hx h2⟩
    exact ⟨R1, R2, ⟨hR1, same hR1 hx hv1⟩, ⟨hR2, same hR2 hx hv2⟩, h1, h2, hdis, tr hR1 hv1, tr hR2 hv2⟩

end Model
