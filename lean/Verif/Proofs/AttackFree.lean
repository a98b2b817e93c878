import Verif.Proofs.Attack
/-!
# Stones outside Benson's criterion where suicide is allowed: the next move of the attack, on positions only
-/

namespace Model
open Spec (OnBoard Adj Linked HasLiberty NoDead place SameOn Pos removeDead Lives Vital)

variable {n : Dim} {pos pos' : Pos} {c d : Color}

/-- `q` is next to the group of `t`. -/
def ByGroup (n : Dim) (pos : Pos) (t q : Coord) : Prop := ∃ s, Adj q s ∧ Linked n pos t s

/-- The same points show `d`. -/
def SameStones (n : Dim) (d : Color) (a b : Pos) : Prop := ∀ q, OnBoard n q → (a q = some d ↔ b q = some d)

theorem SameStones.symm (h : SameStones n d pos pos') : SameStones n d pos' pos := fun q hq => (h q hq).symm

theorem linked_stones (h : ∀ q, OnBoard n q → pos q = some d → pos' q = some d) {t s : Coord} (ht : OnBoard n t)
    (hv : pos t = some d) (hl : Linked n pos t s) : Linked n pos' t s := by
  induction hl with
  | refl => exact .refl _
  | @step q r hl ha hr hs ih =>
    have hq : pos q = some d := by rw [linked_same hl, hv]
    exact .step ih ha hr (by rw [h r hr (by rw [hs, hq]), h q (linked_onBoard hl ht) hq])

theorem ByGroup.congr (h : SameStones n d pos pos') {t q : Coord} (ht : OnBoard n t) (hv : pos t = some d) :
    ByGroup n pos' t q ↔ ByGroup n pos t q := by
  constructor
  · rintro ⟨s, h1, h2⟩; exact ⟨s, h1, linked_stones (fun q hq => (h q hq).2) ht ((h t ht).1 hv) h2⟩
  · rintro ⟨s, h1, h2⟩; exact ⟨s, h1, linked_stones (fun q hq => (h q hq).1) ht hv h2⟩

theorem regionOf_congr (h : SameStones n d pos pos') {p q : Coord} (hp : OnBoard n p) :
    regionOf n pos' d p q ↔ regionOf n pos d p q := by
  have hs : SameOn n (onlyStones pos' d) (onlyStones pos d) := by
    intro r hr
    unfold onlyStones
    by_cases hv : pos r = some d
    · rw [if_pos hv, if_pos ((h r hr).1 hv)]
    · rw [if_neg hv, if_neg (fun h' => hv ((h r hr).2 h'))]
  exact ⟨linked_congr hs hp, linked_congr (SameOn.symm hs) hp⟩

theorem AtMostOne.congr (h : SameStones n d pos pos') {t : Coord} (ht : OnBoard n t) (hv : pos t = some d)
    (hw : AtMostOne n pos true d t) : AtMostOne n pos' true d t := by
  intro p p' hp hp' hpv hpv' h1 h2
  have tr : ∀ p, OnBoard n p → Vital n pos' true (regionOf n pos' d p) t → Vital n pos true (regionOf n pos d p) t := by
    intro p hp hvt q hq _
    exact (ByGroup.congr h ht hv).1 (hvt q ((regionOf_congr h hp).2 hq) (Or.inr rfl))
  obtain ⟨q, h3, h4⟩ := hw p p' hp hp' (fun h' => hpv ((h p hp).1 h')) (fun h' => hpv' ((h p' hp').1 h')) (tr p hp h1) (tr p' hp' h2)
  exact ⟨q, (regionOf_congr h hp).2 h3, (regionOf_congr h hp').2 h4⟩

/-- Stones that live after some of `d` were taken, group by group, lived before. -/
theorem lives_back {X : Coord → Prop} {Rs : (Coord → Prop) → Prop} (hsub : ∀ q, OnBoard n q → pos' q = some d → pos q = some d)
    (hcap : ∀ q, OnBoard n q → pos q = some d → pos' q ≠ some d → ∀ u, Adj q u → OnBoard n u → pos' u ≠ some d)
    (h : Lives n pos' d true X Rs) : Lives n pos d true X (fun R => Rs R ∧ ∀ q, R q → pos q ≠ some d) := by
  have keep : ∀ {R x}, Rs R → X x → Vital n pos' true R x → ∀ q, R q → pos q ≠ some d := by
    intro R x hR hx hvt q hq hqv
    obtain ⟨u, h1, h2⟩ := hvt q hq (Or.inr rfl)
    refine hcap q (h.inside R hR q hq).1 hqv (h.inside R hR q hq).2 u h1 (linked_onBoard h2 (h.stones x hx).1) ?_
    rw [linked_same h2, (h.stones x hx).2]
  refine ⟨fun x hx => ⟨(h.stones x hx).1, hsub x (h.stones x hx).1 (h.stones x hx).2⟩, ?_, ?_, ?_⟩
  · rintro R ⟨hR, he⟩ q hq; exact ⟨(h.inside R hR q hq).1, he q hq⟩
  · rintro R ⟨hR, _⟩ q hq r ha hr; exact h.border R hR q hq r ha hr
  · intro x hx
    obtain ⟨R1, R2, hR1, hR2, h1, h2, hdis, hv1, hv2⟩ := h.two x hx
    have tr : ∀ {R}, Rs R → Vital n pos' true R x → Vital n pos true R x := by
      intro R hR hvt q hq _
      obtain ⟨u, h1, h2⟩ := hvt q hq (Or.inr rfl)
      exact ⟨u, h1, linked_stones hsub (h.stones x hx).1 (h.stones x hx).2 h2⟩
    exact ⟨R1, R2, ⟨hR1, keep hR1 hx hv1⟩, ⟨hR2, keep hR2 hx hv2⟩, h1, h2, hdis, tr hR1 hv1, tr hR2 hv2⟩

/-- `q` is in a region all of whose empty points are next to the group of `t`, but not all of its points: the attacker has to clear it. -/
def Clogged (n : Dim) (pos : Pos) (d : Color) (t q : Coord) : Prop :=
  pos q ≠ some d ∧ (∀ e, regionOf n pos d q e → pos e = none → ByGroup n pos t e) ∧ ∃ e, regionOf n pos d q e ∧ ¬ ByGroup n pos t e

/-- Against a group with at most one vital region there is a move on one of its liberties that is no suicide or clears a region. -/
theorem free_move (hd : NoDead n pos) {t : Coord} (ht : OnBoard n t) (hv : pos t = some c.opp) (hw : AtMostOne n pos true c.opp t) :
    ∃ p, LibAt n pos t p ∧ (HasLiberty n (after n pos p c) p ∨
      (¬ HasLiberty n (after n pos p c) p ∧ Clogged n pos c.opp t p ∧
        ∀ q, regionOf n pos c.opp p q → Linked n (place pos p c) p q)) := by
  by_cases hf : AtMostOne n pos false c.opp t
  · obtain ⟨p, h1, h2⟩ := attack_move hd ht hv hf
    exact ⟨p, h1, Or.inl h2⟩
  unfold AtMostOne at hf
  simp only [not_forall, not_exists, not_and] at hf
  obtain ⟨a, a', ha, ha', hav, hav', hva, hva', hdis⟩ := hf
  have hcl : ∀ a, OnBoard n a → pos a ≠ some c.opp → Vital n pos false (regionOf n pos c.opp a) t →
      ¬ Vital n pos true (regionOf n pos c.opp a) t → ∃ p, LibAt n pos t p ∧ (HasLiberty n (after n pos p c) p ∨
      (¬ HasLiberty n (after n pos p c) p ∧ Clogged n pos c.opp t p ∧
        ∀ q, regionOf n pos c.opp p q → Linked n (place pos p c) p q)) := by
    intro a ha hav hva hnv
    unfold Vital at hnv
    simp only [not_forall] at hnv
    obtain ⟨e, he, _, hne⟩ := hnv
    obtain ⟨heb, hev⟩ := regionOf_spec ha hav he
    -- an empty point of the region
    obtain ⟨p, hp, hpe⟩ : ∃ p, regionOf n pos c.opp a p ∧ pos p = none := by
      rcases color_cases (pos e) c with h' | h' | h'
      · exact ⟨e, he, h'⟩
      · obtain ⟨q, r, h1, h2, h3, h4⟩ := hd e heb (by rw [h']; simp)
        have hq : ∀ q, Linked n pos e q → regionOf n pos c.opp a q := by
          intro q hl
          induction hl with
          | refl => exact he
          | @step q r hl ha' hr hs ih =>
            exact regionOf_step ha hav ih ha' hr (by rw [hs, linked_same hl]; exact hev)
        exact ⟨r, regionOf_step ha hav (hq q h1) h2 h3 (by rw [h4]; simp), h4⟩
      · exact absurd h' hev
    have hpb := (regionOf_spec ha hav hp).1
    have hpa : regionOf n pos c.opp p a := linked_symm ha hp
    obtain ⟨s, h1, h2⟩ := hva p hp (Or.inl hpe)
    refine ⟨p, ⟨hpb, hpe, s, h2, adj_symm h1⟩, ?_⟩
    by_cases hl : HasLiberty n (after n pos p c) p
    · exact Or.inl hl
    refine Or.inr ⟨hl, ⟨by rw [hpe]; simp, fun e' he' hee => hva e' (linked_trans hp he') (Or.inl hee), e, linked_trans hpa he,
      hne⟩, fun q hq => ?_⟩
    have hnl : ¬ HasLiberty n (place pos p c) p := fun h => hl (hasLiberty_removeDead hpb h)
    induction hq with
    | refl => exact .refl _
    | @step q r hq ha' hr hs ih =>
      have hrv : pos r ≠ some c.opp := by
        refine onlyStones_iff.1 ((linked_same (.step hq ha' hr hs)).trans (onlyStones_iff.2 ?_))
        rw [hpe]; simp
      by_cases hrp : r = p
      · subst hrp; exact .refl _
      rcases color_cases (pos r) c with h' | h' | h'
      · exact absurd ⟨q, r, ih, ha', hr, by rw [place_ne hrp, h']⟩ hnl
      · exact .step ih ha' hr (by rw [place_ne hrp, h', linked_same ih, place_self])
      · exact absurd h' hrv
  by_cases hv1 : Vital n pos true (regionOf n pos c.opp a) t
  · by_cases hv2 : Vital n pos true (regionOf n pos c.opp a') t
    · obtain ⟨q, h1, h2⟩ := hw a a' ha ha' hav hav' hv1 hv2
      exact absurd h2 (hdis q h1)
    · exact hcl a' ha' hav' hva' hv2
  · exact hcl a ha hav hva hv1

open Classical in
/-- What there is still to do at a point: to fill it, to clear it. -/
noncomputable def toDo (n : Dim) (pos : Pos) (d : Color) (t q : Coord) : Nat :=
  (if pos q = none then 1 else 0) + (if Clogged n pos d t q then 1 else 0)

theorem toDo_le {t q : Coord} : toDo n pos d t q ≤ 2 := by
  unfold toDo; split <;> split <;> omega

theorem sum_lt {f g : Coord → Nat} : ∀ {l : List Coord}, (∀ q ∈ l, f q ≤ g q) → (∃ p ∈ l, f p < g p) → (l.map f).sum < (l.map g).sum
  | [], _, ⟨_, h, _⟩ => nomatch h
  | a :: l, hle, ⟨p, hp, hlt⟩ => by
    have h1 := hle a List.mem_cons_self
    have hle' : ∀ q ∈ l, f q ≤ g q := fun q hq => hle q (List.mem_cons_of_mem _ hq)
    have h2 : (l.map f).sum ≤ (l.map g).sum := by
      clear hle hp hlt h1
      induction l with
      | nil => exact Nat.le_refl _
      | cons b l ih =>
        have := hle' b List.mem_cons_self
        have := ih fun q hq => hle' q (List.mem_cons_of_mem _ hq)
        simp only [List.map_cons, List.sum_cons]; omega
    simp only [List.map_cons, List.sum_cons]
    rcases List.mem_cons.1 hp with rfl | hp
    · omega
    · have := sum_lt hle' ⟨p, hp, hlt⟩
      omega

/-- All that is to do against the group of `t`. -/
noncomputable def work (n : Dim) (pos : Pos) (d : Color) (t : Coord) : Nat := ((Spec.points n).map (toDo n pos d t)).sum

/-- The position after a move when own groups without liberties are removed. -/
theorem play_free (hd : NoDead n pos) {p : Coord} (hp : OnBoard n p) (he : pos p = none) :
    (HasLiberty n (after n pos p c) p → SameOn n (Spec.play n true pos p c) (after n pos p c)) ∧
    (¬ HasLiberty n (after n pos p c) p → (∀ q, OnBoard n q → Linked n (place pos p c) p q → Spec.play n true pos p c q = none) ∧
      ∀ q, OnBoard n q → ¬ Linked n (place pos p c) p q → Spec.play n true pos p c q = pos q) := by
  have hpl : ∀ q, Spec.play n true pos p c q = removeDead n (after n pos p c) c q := fun _ => rfl
  constructor
  · intro hl q hq
    rw [hpl]
    unfold removeDead
    rw [if_neg]
    rintro ⟨h1, h2⟩
    by_cases hlk : Linked n (after n pos p c) p q
    · exact h2 ((hasLiberty_linked hp hlk).1 hl)
    · exact h2 (own_lib hd hp he hq h1 hlk)
  · intro hl
    -- nothing is taken
    have hsame : ∀ q, OnBoard n q → after n pos p c q = place pos p c q := by
      intro q hq
      by_cases hqp : q = p
      · subst hqp; rw [after_self, place_self]
      rw [place_ne hqp]
      rcases after_eq (n := n) (pos := pos) (c := c) (p := p) (q := q) hqp with h | ⟨h1, h2⟩
      · exact h
      · obtain ⟨s, h3, h4, h5, h6⟩ := captured_adj hd hq he h1 h2
        have : after n pos p c s = none := by
          rw [captured_iff he h1] at h2
          exact (captured_iff he h5).2 fun r hr => h2 r ((libAt_linked hq h6).2 hr)
        exact absurd ⟨p, s, .refl _, h3, h4, this⟩ hl
    have hlk : ∀ {q}, Linked n (after n pos p c) p q ↔ Linked n (place pos p c) p q :=
      ⟨linked_congr hsame hp, linked_congr (SameOn.symm hsame) hp⟩
    refine ⟨fun q hq h => ?_, fun q hq h => ?_⟩
    · rw [hpl]
      unfold removeDead
      rw [if_pos]
      have h' := hlk.2 h
      exact ⟨by rw [linked_same h', after_self], fun h2 => hl ((hasLiberty_linked hp h').2 h2)⟩
    · rw [hpl]
      have hqp : q ≠ p := by rintro rfl; exact h (.refl _)
      unfold removeDead
      rw [if_neg, hsame q hq, place_ne hqp]
      rintro ⟨h1, h2⟩
      exact h2 (own_lib hd hp he hq h1 fun h' => h (hlk.1 h'))

/-- A move of `free_move` takes a stone of the opponent, or leaves less to do. -/
theorem free_progress (hd : NoDead n pos) {t p : Coord} (ht : OnBoard n t) (hv : pos t = some c.opp) (hlib : LibAt n pos t p)
    (hmv : HasLiberty n (after n pos p c) p ∨
      (¬ HasLiberty n (after n pos p c) p ∧ Clogged n pos c.opp t p ∧
        ∀ q, regionOf n pos c.opp p q → Linked n (place pos p c) p q)) :
    (∀ q, OnBoard n q → Spec.play n true pos p c q = some c.opp → pos q = some c.opp) ∧
    (∀ q, OnBoard n q → pos q = some c.opp → Spec.play n true pos p c q ≠ some c.opp →
      Spec.play n true pos p c q = none ∧ ∀ u, Adj q u → OnBoard n u → Spec.play n true pos p c u ≠ some c.opp) ∧
    ((∃ q, OnBoard n q ∧ pos q = some c.opp ∧ Spec.play n true pos p c q ≠ some c.opp) ∨
      (SameStones n c.opp pos (Spec.play n true pos p c) ∧ work n (Spec.play n true pos p c) c.opp t < work n pos c.opp t)) := by
  obtain ⟨hp, he, s0, hs0, has0⟩ := hlib
  have hpt : ByGroup n pos t p := ⟨s0, adj_symm has0, hs0⟩
  rcases hmv with hl | ⟨hl, hcl, hreg⟩
  · -- no suicide
    have hs := (play_free hd hp he).1 hl
    refine ⟨fun q hq h => (after_opp (by rw [← hs q hq]; exact h)).2.1, fun q hq hqv hqn => ?_, ?_⟩
    · rw [hs q hq] at hqn
      have hqp : q ≠ p := by rintro rfl; rw [he] at hqv; cases hqv
      have hq0 : after n pos p c q = none := by
        rcases after_eq (n := n) (pos := pos) (c := c) (p := p) (q := q) hqp with h | h
        · exact absurd (h.trans hqv) hqn
        · exact h.2
      refine ⟨by rw [hs q hq]; exact hq0, fun u hu hub huv => ?_⟩
      rw [hs u hub] at huv
      have huv' := (after_opp huv).2.1
      have hlink : Linked n pos q u := .step (.refl _) hu hub (by rw [huv', hqv])
      have : after n pos p c u = none := by
        rw [captured_iff he hqv] at hq0
        exact (captured_iff he huv').2 fun r hr => hq0 r ((libAt_linked hq hlink).2 hr)
      rw [huv] at this; cases this
    · by_cases hcap : ∃ q, OnBoard n q ∧ pos q = some c.opp ∧ Spec.play n true pos p c q ≠ some c.opp
      · exact Or.inl hcap
      right
      have hsame : ∀ q, OnBoard n q → q ≠ p → Spec.play n true pos p c q = pos q := by
        intro q hq hqp
        rw [hs q hq]
        rcases after_eq (n := n) (pos := pos) (c := c) (p := p) (q := q) hqp with h | ⟨h1, h2⟩
        · exact h
        · exact absurd ⟨q, hq, h1, by rw [hs q hq, h2]; simp⟩ hcap
      have hpv : Spec.play n true pos p c p = some c := by rw [hs p hp, after_self]
      have hst : SameStones n c.opp pos (Spec.play n true pos p c) := by
        intro q hq
        by_cases hqp : q = p
        · subst hqp; rw [he, hpv]; exact ⟨fun h => (by cases h), fun h => absurd h some_ne_opp⟩
        · rw [hsame q hq hqp]
      refine ⟨hst, sum_lt (fun q hq => ?_) ⟨p, mem_points.2 hp, ?_⟩⟩
      · have hq := mem_points.1 hq
        have hc' : Clogged n (Spec.play n true pos p c) c.opp t q → Clogged n pos c.opp t q := by
          rintro ⟨h1, h2, e, h3, h4⟩
          have hq1 : pos q ≠ some c.opp := fun h => h1 ((hst q hq).1 h)
          refine ⟨hq1, fun e he' hee => ?_, e, (regionOf_congr hst hq).1 h3, fun h => h4 ((ByGroup.congr hst ht hv).2 h)⟩
          by_cases hep : e = p
          · subst hep; exact hpt
          · have heb := (regionOf_spec hq hq1 he').1
            exact (ByGroup.congr hst ht hv).1 (h2 e ((regionOf_congr hst hq).2 he') (by rw [hsame e heb hep, hee]))
        have hn' : Spec.play n true pos p c q = none → pos q = none := by
          intro h
          by_cases hqp : q = p
          · rw [hqp]; exact he
          · rw [← hsame q hq hqp]; exact h
        unfold toDo
        by_cases h1 : Clogged n (Spec.play n true pos p c) c.opp t q <;> by_cases h2 : Spec.play n true pos p c q = none <;>
          simp [h1, h2, hc', hn']
      · have hc' : Clogged n (Spec.play n true pos p c) c.opp t p → Clogged n pos c.opp t p := by
          rintro ⟨h1, h2, e, h3, h4⟩
          refine ⟨by rw [he]; simp, fun e he' hee => ?_, e, (regionOf_congr hst hp).1 h3, fun h => h4 ((ByGroup.congr hst ht hv).2 h)⟩
          by_cases hep : e = p
          · subst hep; exact hpt
          · have heb := (regionOf_spec hp (by rw [he]; simp) he').1
            exact (ByGroup.congr hst ht hv).1 (h2 e ((regionOf_congr hst hp).2 he') (by rw [hsame e heb hep, hee]))
        unfold toDo
        rw [hpv, if_neg (by simp), if_pos he]
        by_cases h1 : Clogged n (Spec.play n true pos p c) c.opp t p
        · rw [if_pos h1, if_pos (hc' h1)]; omega
        · rw [if_neg h1]; omega
  · -- suicide
    obtain ⟨hin, hout⟩ := (play_free hd hp he).2 hl
    have hlr : ∀ {q}, Linked n (place pos p c) p q → regionOf n pos c.opp p q := by
      intro q hq
      induction hq with
      | refl => exact .refl _
      | @step q r hq ha hr hs ih =>
        refine regionOf_step hp (by rw [he]; simp) ih ha hr ?_
        have hv' : place pos p c r = some c := by rw [hs, linked_same hq, place_self]
        by_cases hrp : r = p
        · rw [hrp, he]; simp
        · rw [place_ne hrp] at hv'; rw [hv']; exact some_ne_opp
    have hst : SameStones n c.opp pos (Spec.play n true pos p c) := by
      intro q hq
      by_cases hlk : Linked n (place pos p c) p q
      · rw [hin q hq hlk]
        have := (regionOf_spec hp (by rw [he]; simp) (hlr hlk)).2
        exact ⟨fun h => absurd h this, fun h => by cases h⟩
      · rw [hout q hq hlk]
    have hempty : ∀ q, regionOf n pos c.opp p q → Spec.play n true pos p c q = none := fun q hq =>
      hin q (regionOf_spec hp (by rw [he]; simp) hq).1 (hreg q hq)
    have hfar : ∀ q, OnBoard n q → ¬ regionOf n pos c.opp p q → Spec.play n true pos p c q = pos q := fun q hq h =>
      hout q hq fun h' => h (hlr h')
    have hopen : ∀ q, OnBoard n q → regionOf n pos c.opp p q → ¬ Clogged n (Spec.play n true pos p c) c.opp t q := by
      rintro q hqb hq ⟨_, h2, _⟩
      obtain ⟨_, _, e, he1, he2⟩ := hcl
      have hqe : regionOf n pos c.opp q e := linked_trans (linked_symm hp hq) he1
      exact he2 ((ByGroup.congr hst ht hv).1 (h2 e ((regionOf_congr hst hqb).2 hqe) (hempty e he1)))
    have hclog : ∀ q, regionOf n pos c.opp p q → Clogged n pos c.opp t q := by
      rintro q hq
      obtain ⟨_, h2, e, he1, he2⟩ := hcl
      exact ⟨(regionOf_spec hp (by rw [he]; simp) hq).2, fun e' he' => h2 e' (linked_trans hq he'), e,
        linked_trans (linked_symm hp hq) he1, he2⟩
    refine ⟨fun q hq h => (hst q hq).2 h, fun q hq hqv hqn => absurd ((hst q hq).1 hqv) hqn, Or.inr ⟨hst, ?_⟩⟩
    refine sum_lt (fun q hq => ?_) ⟨p, mem_points.2 hp, ?_⟩
    · have hq := mem_points.1 hq
      unfold toDo
      by_cases hr : regionOf n pos c.opp p q
      · rw [if_pos (hempty q hr), if_neg (hopen q hq hr), if_pos (hclog q hr)]; omega
      · rw [hfar q hq hr]
        have hc' : Clogged n (Spec.play n true pos p c) c.opp t q → Clogged n pos c.opp t q := by
          rintro ⟨h1, h2, e, h3, h4⟩
          have hq1 : pos q ≠ some c.opp := fun h => h1 ((hst q hq).1 h)
          refine ⟨hq1, fun e he' hee => ?_, e, (regionOf_congr hst hq).1 h3, fun h => h4 ((ByGroup.congr hst ht hv).2 h)⟩
          have heb := (regionOf_spec hq hq1 he').1
          refine (ByGroup.congr hst ht hv).1 (h2 e ((regionOf_congr hst hq).2 he') ?_)
          rw [hfar e heb (fun h => hr (linked_trans h (linked_symm hq he'))), hee]
        by_cases h1 : Clogged n (Spec.play n true pos p c) c.opp t q
        · rw [if_pos h1, if_pos (hc' h1)]; split <;> omega
        · rw [if_neg h1]; omega
    · unfold toDo
      rw [if_pos (hempty p (.refl _)), if_neg (hopen p hp (.refl _)), if_pos (hclog p (.refl _)), if_pos he]
      omega

end Model
