import Verif.Props.Reachable
/-!
# Legal games that crash, under every rule: C72

A board with many kos that do not touch each other's liberties. The kos are taken and retaken in the order of a Gray code, so that no
position comes twice and even a full super-ko test has nothing to refuse. Every capture takes a slot of the group table.
-/

namespace Model
open Spec (OnBoard Adj Linked HasLiberty NoDead place SameOn Pos Suicide State Call)

variable {dbg : Bool} {n : Dim} {m : Nat} {o : Option EndGame} {g : Game} {s : State}

/-! ### Rows of kos -/

/-- The colour of the wall in column `3 * j`. -/
def wallColor (j : Nat) : Color := if j % 2 = 0 then .black else .white

theorem wallColor_succ (j : Nat) : wallColor (j + 1) = (wallColor j).opp := by
  unfold wallColor
  by_cases h : j % 2 = 0
  · rw [if_pos h, if_neg (by omega)]; rfl
  · rw [if_neg h, if_pos (by omega)]; rfl

/-- `J` columns of kos. The ko `(a, j)` has its two points in row `2 * a`, columns `3 * j + 1` and `3 * j + 2`; `x` tells in which of
the two there is a stone. -/
def koField (J : Nat) (x : Nat × Nat → Bool) : Pos := fun p =>
  if 3 * J < p.2 then none
  else if p.1 % 2 = 1 then
    (if p.2 % 3 = 0 then none else if p.2 % 3 = 1 then some (wallColor (p.2 / 3)) else some (wallColor (p.2 / 3)).opp)
  else if p.2 % 3 = 0 then some (wallColor (p.2 / 3))
  else if p.2 % 3 = 1 then (if x (p.1 / 2, p.2 / 3) then none else some (wallColor (p.2 / 3)).opp)
  else (if x (p.1 / 2, p.2 / 3) then some (wallColor (p.2 / 3)) else none)

/-- The empty point of a ko. -/
def koMove (x : Nat × Nat → Bool) (k : Nat × Nat) : Coord := (2 * k.1, 3 * k.2 + if x k then 1 else 2)

/-- The stone of a ko. -/
def koGone (x : Nat × Nat → Bool) (k : Nat × Nat) : Coord := (2 * k.1, 3 * k.2 + if x k then 2 else 1)

/-- The player who can take the ko. -/
def koColor (x : Nat × Nat → Bool) (k : Nat × Nat) : Color := if x k then (wallColor k.2).opp else wallColor k.2

/-- The ko taken. -/
def koFlip (x : Nat × Nat → Bool) (k : Nat × Nat) : Nat × Nat → Bool := fun j => if j = k then !x j else x j

/-- The ko lies on the board. -/
def KoOn (n : Dim) (J : Nat) (k : Nat × Nat) : Prop := 2 * k.1 < n.h ∧ k.2 < J

/-- The field fits the board. -/
def FieldOn (n : Dim) (J : Nat) : Prop := 3 * J < n.w ∧ 2 ≤ n.h

variable {J : Nat} {x : Nat × Nat → Bool} {k : Nat × Nat}

theorem opp_opp' (c : Color) : c.opp.opp = c := by cases c <;> rfl

theorem koMove_onBoard (hf : FieldOn n J) (hk : KoOn n J k) : OnBoard n (koMove x k) := by
  unfold FieldOn at hf
  unfold KoOn at hk
  refine ⟨hk.1, ?_⟩
  unfold koMove
  dsimp only
  split <;> omega

theorem koGone_onBoard (hf : FieldOn n J) (hk : KoOn n J k) : OnBoard n (koGone x k) := by
  unfold FieldOn at hf
  unfold KoOn at hk
  refine ⟨hk.1, ?_⟩
  unfold koGone
  dsimp only
  split <;> omega

/-- The cells of a ko in coordinates. -/
theorem koField_cell (hk : k.2 < J) (e : Nat) (he : e = 1 ∨ e = 2) : koField J x (2 * k.1, 3 * k.2 + e) =
    if e = 1 then (if x k then none else some (wallColor k.2).opp) else (if x k then some (wallColor k.2) else none) := by
  unfold koField
  have h1 : ¬ 3 * J < 3 * k.2 + e := by omega
  have h2 : ¬ 2 * k.1 % 2 = 1 := by omega
  have h3 : ¬ (3 * k.2 + e) % 3 = 0 := by omega
  have h4 : (3 * k.2 + e) / 3 = k.2 := by omega
  have h5 : 2 * k.1 / 2 = k.1 := by omega
  have h6 : (3 * k.2 + e) % 3 = 1 ↔ e = 1 := by omega
  dsimp only
  rw [if_neg h1, if_neg h2, if_neg h3, h4, h5]
  simp only [h6]

theorem koField_move (hk : k.2 < J) : koField J x (koMove x k) = none := by
  unfold koMove
  rw [koField_cell hk _ (by split <;> simp)]
  cases x k <;> simp

theorem koField_gone (hk : k.2 < J) : koField J x (koGone x k) = some (koColor x k).opp := by
  unfold koGone koColor
  rw [koField_cell hk _ (by split <;> simp)]
  cases x k <;> simp

theorem koMove_adj : Adj (koMove x k) (koGone x k) := by
  unfold koMove koGone
  refine Or.inl ⟨rfl, ?_⟩
  dsimp only
  cases x k <;> simp

/-- What surrounds the cells of a ko, apart from each other. -/
theorem koField_around (hk : KoOn n J k) {e : Nat} (he : e = 1 ∨ e = 2) {a : Coord}
    (ha : Adj (2 * k.1, 3 * k.2 + e) a) (hne : a ≠ (2 * k.1, 3 * k.2 + (3 - e))) :
    koField J x a = some (if e = 1 then wallColor k.2 else (wallColor k.2).opp) := by
  obtain ⟨a1, a2⟩ := a
  unfold KoOn at hk
  unfold koField
  dsimp only
  have hne' : ¬ (a1 = 2 * k.1 ∧ a2 = 3 * k.2 + (3 - e)) := by
    rintro ⟨rfl, rfl⟩; exact hne rfl
  have hw := wallColor_succ k.2
  rcases ha with ⟨h1, h2⟩ | ⟨h1, h2⟩ <;> dsimp only at h1 h2
  · -- the wall
    rcases he with rfl | rfl
    · have : a2 = 3 * k.2 := by omega
      subst this
      rw [if_neg (by omega), if_neg (by omega), if_pos (by omega), show 3 * k.2 / 3 = k.2 by omega]
      rfl
    · have : a2 = 3 * (k.2 + 1) := by omega
      subst this
      rw [if_neg (by omega), if_neg (by omega), if_pos (by omega), show 3 * (k.2 + 1) / 3 = k.2 + 1 by omega, hw]
      rfl
  · -- above and below
    subst h1
    rw [if_neg (by omega), if_pos (by omega), if_neg (by omega), show (3 * k.2 + e) / 3 = k.2 by omega]
    rcases he with rfl | rfl
    · rw [if_pos (by omega)]; rfl
    · rw [if_neg (by omega)]; rfl

/-- Around the empty point of a ko there are only stones of the other player. -/
theorem koMove_around (hk : KoOn n J k) {a : Coord} (ha : Adj (koMove x k) a) :
    koField J x a = some (koColor x k).opp := by
  by_cases hg : a = koGone x k
  · rw [hg]; exact koField_gone hk.2
  · unfold koMove at ha
    unfold koGone at hg
    unfold koColor
    cases hx : x k with
    | true =>
      rw [hx] at ha hg
      rw [koField_around hk (e := 1) (Or.inl rfl) ha hg]
      simp
    | false =>
      rw [hx] at ha hg
      rw [koField_around hk (e := 2) (Or.inr rfl) ha hg]
      simp

/-- Around the stone of a ko there are only stones of the player who can take it, and the empty point. -/
theorem koGone_around (hk : KoOn n J k) {a : Coord} (ha : Adj (koGone x k) a) (hne : a ≠ koMove x k) :
    koField J x a = some (koColor x k) := by
  unfold koGone at ha
  unfold koMove at hne
  unfold koColor
  cases hx : x k with
  | true =>
    rw [hx] at ha hne
    rw [koField_around hk (e := 2) (Or.inr rfl) ha hne]
    simp
  | false =>
    rw [hx] at ha hne
    rw [koField_around hk (e := 1) (Or.inl rfl) ha hne]
    simp

/-- Every stone has an empty point beside it: one in an odd row, or the other point of its ko. -/
theorem koField_liberty (hf : FieldOn n J) {p : Coord} (hp : OnBoard n p) (hne : koField J x p ≠ none) :
    ∃ r, Adj p r ∧ OnBoard n r ∧ koField J x r = none ∧
      (r.1 % 2 = 1 ∨ (p.1 % 2 = 0 ∧ p.2 % 3 ≠ 0 ∧ r.1 = p.1 ∧ r.2 % 3 ≠ 0 ∧ r.2 / 3 = p.2 / 3)) := by
  obtain ⟨p1, p2⟩ := p
  obtain ⟨hp1, hp2⟩ := hp
  unfold FieldOn at hf
  dsimp only at hp1 hp2
  have hJ : ¬ 3 * J < p2 := by
    intro h
    unfold koField at hne
    rw [if_pos h] at hne
    exact hne rfl
  unfold koField at hne
  dsimp only at hne
  rw [if_neg hJ] at hne
  by_cases h1 : p1 % 2 = 1
  · rw [if_pos h1] at hne
    have h3 : p2 % 3 ≠ 0 := by
      intro h; rw [if_pos h] at hne; exact hne rfl
    by_cases h4 : p2 % 3 = 1
    · refine ⟨(p1, p2 - 1), Or.inl ⟨rfl, Or.inr ?_⟩, ⟨hp1, ?_⟩, ?_, Or.inl h1⟩
      · show p2 - 1 + 1 = p2; omega
      · show p2 - 1 < _; omega
      · unfold koField
        dsimp only
        rw [if_neg (by omega), if_pos h1, if_pos (by omega)]
    · refine ⟨(p1, p2 + 1), Or.inl ⟨rfl, Or.inl rfl⟩, ⟨hp1, ?_⟩, ?_, Or.inl h1⟩
      · show p2 + 1 < _; omega
      · unfold koField
        dsimp only
        rw [if_neg (by omega), if_pos h1, if_pos (by omega)]
  · rw [if_neg h1] at hne
    by_cases h3 : p2 % 3 = 0
    · by_cases hb : p1 + 1 < n.h
      · refine ⟨(p1 + 1, p2), Or.inr ⟨rfl, Or.inl rfl⟩, ⟨hb, hp2⟩, ?_, Or.inl (by show (p1 + 1) % 2 = 1; omega)⟩
        unfold koField
        dsimp only
        rw [if_neg (by omega), if_pos (by omega), if_pos (by omega)]
      · refine ⟨(p1 - 1, p2), Or.inr ⟨rfl, Or.inr ?_⟩, ⟨?_, hp2⟩, ?_, Or.inl (by show (p1 - 1) % 2 = 1; omega)⟩
        · show p1 - 1 + 1 = p1; omega
        · show p1 - 1 < _; omega
        · unfold koField
          dsimp only
          rw [if_neg (by omega), if_pos (by omega), if_pos (by omega)]
    · rw [if_neg h3] at hne
      by_cases h4 : p2 % 3 = 1
      · rw [if_pos h4] at hne
        have hx : x (p1 / 2, p2 / 3) = false := by
          cases h : x (p1 / 2, p2 / 3) with
          | false => rfl
          | true => rw [h] at hne; exact absurd rfl hne
        refine ⟨(p1, p2 + 1), Or.inl ⟨rfl, Or.inl rfl⟩, ⟨hp1, ?_⟩, ?_, Or.inr ⟨?_, h3, rfl, ?_, ?_⟩⟩
        · show p2 + 1 < _; omega
        · unfold koField
          dsimp only
          rw [if_neg (by omega), if_neg h1, if_neg (by omega), if_neg (by omega), show (p2 + 1) / 3 = p2 / 3 by omega, hx]
          rfl
        · show p1 % 2 = 0; omega
        · show (p2 + 1) % 3 ≠ 0; omega
        · show (p2 + 1) / 3 = p2 / 3; omega
      · rw [if_neg h4] at hne
        have hx : x (p1 / 2, p2 / 3) = true := by
          cases h : x (p1 / 2, p2 / 3) with
          | true => rfl
          | false => rw [h] at hne; exact absurd rfl hne
        refine ⟨(p1, p2 - 1), Or.inl ⟨rfl, Or.inr ?_⟩, ⟨hp1, ?_⟩, ?_, Or.inr ⟨?_, h3, rfl, ?_, ?_⟩⟩
        · show p2 - 1 + 1 = p2; omega
        · show p2 - 1 < _; omega
        · unfold koField
          dsimp only
          rw [if_neg (by omega), if_neg h1, if_neg (by omega), if_pos (by omega), show (p2 - 1) / 3 = p2 / 3 by omega, hx]
          rfl
        · show p1 % 2 = 0; omega
        · show (p2 - 1) % 3 ≠ 0; omega
        · show (p2 - 1) / 3 = p2 / 3; omega

theorem koField_noDead (hf : FieldOn n J) (x : Nat × Nat → Bool) : NoDead n (koField J x) := by
  intro p hp hne
  obtain ⟨r, h1, h2, h3, _⟩ := koField_liberty hf hp hne
  exact ⟨p, r, Linked.refl _, h1, h2, h3⟩

/-- Outside its two points a ko does not show. -/
theorem koField_flip {q : Coord} (h1 : q ≠ koMove x k) (h2 : q ≠ koGone x k) : koField J (koFlip x k) q = koField J x q := by
  obtain ⟨q1, q2⟩ := q
  unfold koField koFlip
  dsimp only
  by_cases hq : (q1 / 2, q2 / 3) = k
  · subst hq
    unfold koMove at h1
    unfold koGone at h2
    dsimp only at h1 h2
    have hcell : ¬ (q1 % 2 = 0 ∧ q2 % 3 ≠ 0) := by
      rintro ⟨h3, h4⟩
      have e1 : q1 = 2 * (q1 / 2) := by omega
      have h5 : q2 = 3 * (q2 / 3) + 1 ∨ q2 = 3 * (q2 / 3) + 2 := by omega
      cases hx : x (q1 / 2, q2 / 3) <;> rw [hx] at h1 h2 <;> rcases h5 with h5 | h5
      · exact h2 (Prod.ext e1 h5)
      · exact h1 (Prod.ext e1 h5)
      · exact h1 (Prod.ext e1 h5)
      · exact h2 (Prod.ext e1 h5)
    by_cases h3 : q1 % 2 = 1
    · simp only [if_pos h3]
    · have h4 : q2 % 3 = 0 := by
        by_contra h; exact hcell ⟨by omega, h⟩
      simp only [if_neg h3, if_pos h4]
  · simp only [if_neg hq]

theorem koFlip_self (x : Nat × Nat → Bool) (k : Nat × Nat) : koFlip x k k = !x k := by unfold koFlip; rw [if_pos rfl]

theorem koMove_flip : koMove (koFlip x k) k = koGone x k := by
  unfold koMove koGone
  rw [koFlip_self]
  cases x k <;> rfl

theorem koGone_flip : koGone (koFlip x k) k = koMove x k := by
  unfold koMove koGone
  rw [koFlip_self]
  cases x k <;> rfl

theorem koColor_flip : koColor (koFlip x k) k = (koColor x k).opp := by
  unfold koColor
  rw [koFlip_self]
  cases x k <;> simp

/-- Taking a ko. -/
theorem koField_take (hf : FieldOn n J) (hk : KoOn n J k) :
    SameOn n (Spec.removeDead n (place (koField J x) (koMove x k) (koColor x k)) (koColor x k).opp) (koField J (koFlip x k)) := by
  intro q hq
  have hmg : koGone x k ≠ koMove x k := by
    intro h
    have := koField_gone (x := x) hk.2
    rw [h, koField_move hk.2] at this
    cases this
  unfold Spec.removeDead
  by_cases hm : q = koMove x k
  · subst hm
    rw [if_neg]
    · rw [place_self]
      have := koField_gone (x := koFlip x k) hk.2
      rw [koGone_flip, koColor_flip, opp_opp'] at this
      exact this.symm
    · rw [place_self]
      rintro ⟨h, _⟩
      exact Color.ne_opp _ (Option.some.inj h)
  · by_cases hg : q = koGone x k
    · subst hg
      have he := koField_move (x := koFlip x k) hk.2
      rw [koMove_flip] at he
      rw [he, if_pos]
      have hv : place (koField J x) (koMove x k) (koColor x k) (koGone x k) = some (koColor x k).opp := by
        rw [place_ne hm]; exact koField_gone hk.2
      have hround : ∀ a, Adj (koGone x k) a → place (koField J x) (koMove x k) (koColor x k) a = some (koColor x k) := by
        intro a ha
        by_cases hne : a = koMove x k
        · rw [hne, place_self]
        · rw [place_ne hne]; exact koGone_around hk ha hne
      refine ⟨hv, ?_⟩
      rintro ⟨a, r, hl, hadj, hr, hn⟩
      have : a = koGone x k := by
        clear hadj
        induction hl with
        | refl => rfl
        | @step b c h1 h2 h3 h4 ih =>
          subst ih
          rw [hround c h2, hv] at h4
          exact absurd (Option.some.inj h4) (Color.ne_opp _)
      subst this
      rw [hround r hadj] at hn
      cases hn
    · rw [koField_flip hm hg, place_ne hm, if_neg]
      rintro ⟨hv, hl⟩
      obtain ⟨r, h1, h2, h3, h4⟩ := koField_liberty (x := x) hf hq (by rw [hv]; simp)
      refine hl ⟨q, r, Linked.refl _, h1, h2, ?_⟩
      rw [place_ne, h3]
      rintro rfl
      rcases h4 with h4 | ⟨h4, h5, h6, h7, h8⟩
      · unfold koMove at h4; dsimp only at h4; omega
      · unfold koMove at h6 h7 h8 hm
        unfold koGone at hg
        dsimp only at h6 h7 h8
        have h9 : q.2 / 3 = k.2 := by rw [← h8]; split <;> omega
        have h10 : q.2 = 3 * k.2 + 1 ∨ q.2 = 3 * k.2 + 2 := by omega
        cases hx : x k <;> rw [hx] at hm hg <;> rcases h10 with h10 | h10
        · exact hg (Prod.ext h6.symm h10)
        · exact hm (Prod.ext h6.symm h10)
        · exact hm (Prod.ext h6.symm h10)
        · exact hg (Prod.ext h6.symm h10)

/-- Taking a ko, with suicide allowed or not. -/
theorem koField_play (hf : FieldOn n J) (hk : KoOn n J k) {pos : Pos} (hpos : SameOn n pos (koField J x)) (sa : Bool) :
    SameOn n (Spec.play n sa pos (koMove x k) (koColor x k)) (koField J (koFlip x k)) := by
  have h1 : SameOn n (Spec.removeDead n (place pos (koMove x k) (koColor x k)) (koColor x k).opp) (koField J (koFlip x k)) :=
    SameOn.trans (removeDead_congr (place_congr hpos _ _) _) (koField_take hf hk)
  unfold Spec.play
  dsimp only
  split
  · exact SameOn.trans (removeDead_congr h1 _) (removeDead_noDead (koField_noDead hf _) _)
  · exact h1

/-! ### One move of the long game -/

/-- The answer to taking a ko, under every rule: it is accepted unless it repeats a position or retakes at once. -/
theorem ko_ok (r : Spec.Forbidden) (hf : FieldOn n J) (hk : KoOn n J k) (hpos : SameOn n s.pos (koField J x)) (hps : s.passes ≤ 1)
    (ht : s.turn = koColor x k) (hb : ∀ b, s.before = some b → b (koMove x k) = none)
    (hh : r.superko = true → ∀ q ∈ s.played, ¬ SameOn n q (koField J (koFlip x k))) :
    Spec.answerSeen n r s (.play (koMove x k)) = .ok := by
  have hO := koMove_onBoard (x := x) hf hk
  have he : s.pos (koMove x k) = none := by rw [hpos _ hO]; exact koField_move hk.2
  unfold Spec.answerSeen
  dsimp only
  rw [if_neg (by omega), if_neg (by simp [he]), if_neg, if_neg, if_neg, if_neg]
  · rintro ⟨hk', _, _, b, hb', hs⟩
    refine hh hk' b hb' (SameOn.trans (SameOn.symm hs) ?_)
    rw [ht]
    exact koField_play hf hk hpos _
  · rintro ⟨_, _, h2, _⟩
    have := h2 _ koMove_adj (koGone_onBoard hf hk)
    rw [hpos _ (koGone_onBoard hf hk), koField_gone hk.2, ht] at this
    exact Color.ne_opp _ (Option.some.inj this).symm
  · rintro ⟨_, ⟨b, hb', h1⟩, _⟩
    have := ((h1 _ hO).2 rfl).1
    rw [hb b hb'] at this
    cases this
  · rintro ⟨_, h1⟩
    refine h1 ⟨_, koGone x k, Linked.refl _, koMove_adj, koGone_onBoard hf hk, ?_⟩
    have h2 : SameOn n (Spec.removeDead n (place s.pos (koMove x k) s.turn) s.turn.opp) (koField J (koFlip x k)) := by
      rw [ht]
      exact SameOn.trans (removeDead_congr (place_congr hpos _ _) _) (koField_take hf hk)
    rw [h2 _ (koGone_onBoard hf hk)]
    have := koField_move (x := koFlip x k) hk.2
    rwa [koMove_flip] at this

/-- From `g`, calls of `try_play` that are all accepted lead to `g'`; nobody resigns. -/
def Steps (dbg : Bool) (n : Dim) (g g' : Game) : Prop :=
  ∃ (ms : List Move) (es : List (Option PlayError)), (∀ mv ∈ ms, Move.OnBoard n mv) ∧ g.run dbg (ms.map GOp.try_) = .ok (es, g') ∧
    (∀ e ∈ es, e = none) ∧ g'.outcome = g.outcome

/-- From `g`, calls of `try_play` that are all accepted lead to a game where an on-board move panics. -/
def Crash (dbg : Bool) (n : Dim) (g : Game) : Prop := ∃ g' mv, Steps dbg n g g' ∧ Move.OnBoard n mv ∧ g'.tryPlay dbg mv = panic

theorem Steps.refl (g : Game) : Steps dbg n g g := ⟨[], [], by simp, rfl, by simp, rfl⟩

theorem Steps.trans {g1 g2 g3 : Game} (h1 : Steps dbg n g1 g2) (h2 : Steps dbg n g2 g3) : Steps dbg n g1 g3 := by
  obtain ⟨ms, es, a1, a2, a3, a4⟩ := h1
  obtain ⟨ms', es', b1, b2, b3, b4⟩ := h2
  refine ⟨ms ++ ms', es ++ es', ?_, ?_, ?_, b4.trans a4⟩
  · intro mv hmv
    exact (List.mem_append.1 hmv).elim (a1 mv) (b1 mv)
  · rw [List.map_append, run_append, a2, ok_bind]
    dsimp only
    rw [b2]; rfl
  · intro e he
    exact (List.mem_append.1 he).elim (a3 e) (b3 e)

theorem tryPlay_outcome {g1 g2 : Game} {mv : Move} (hr : ∀ c, mv ≠ .resign c) (e : g1.tryPlay dbg mv = .ok (none, g2)) :
    g2.outcome = g1.outcome := by
  have e := C13_accepted_is_play e
  cases mv with
  | pass =>
    obtain ⟨_, _, e⟩ := bind_eq_ok e
    cases e; rfl
  | play x y =>
    rw [play_eq] at e
    obtain ⟨_, _, e⟩ := bind_eq_ok e
    obtain ⟨_, _, e⟩ := bind_eq_ok e
    cases e; rfl
  | resign c => exact absurd rfl (hr c)

theorem Steps.one {g1 g2 : Game} {mv : Move} (hmv : Move.OnBoard n mv) (hr : ∀ c, mv ≠ .resign c)
    (e : g1.tryPlay dbg mv = .ok (none, g2)) : Steps dbg n g1 g2 := by
  refine ⟨[mv], [none], by simpa using hmv, ?_, by simp, tryPlay_outcome hr e⟩
  show (do
    let r ← g1.call dbg (.try_ mv)
    let rs ← r.2.run dbg []
    Except.ok (r.1 :: rs.1, rs.2)) = _
  rw [show g1.call dbg (.try_ mv) = .ok (none, g2) from e]
  rfl

theorem Crash.after {g1 g2 : Game} (h1 : Steps dbg n g1 g2) (h2 : Crash dbg n g2) : Crash dbg n g1 := by
  obtain ⟨g', mv, a, b⟩ := h2
  exact ⟨g', mv, h1.trans a, b⟩

/-- A move that the abstract game accepts is made, or panics. -/
theorem Sim.make (h : Sim dbg n m o g s) (mv : Move) (hmv : mv.OnBoard n) (hp : s.passes ≤ 2)
    (ha : Spec.answerSeen n g.rule.flagIllegal.forbidden s mv.call = .ok) :
    Crash dbg n g ∨ ∃ g' m', g.tryPlay dbg mv = .ok (none, g') ∧ Sim dbg n m' o g' (Spec.apply n g.rule.flagIllegal.forbidden s mv.call) ∧
      g'.rule.flagIllegal = g.rule.flagIllegal := by
  rcases h.call_seen (dbg := dbg) (.try_ mv) hmv hp with ⟨⟨e0, g'⟩, e1, h2, ⟨m', _, h3⟩, h4, _⟩ | ⟨e, _⟩
  · have hst : Spec.stepSeen n g.rule.flagIllegal.forbidden s (GOp.try_ mv).call =
        (.ok, Spec.apply n g.rule.flagIllegal.forbidden s mv.call) := by
      unfold Spec.stepSeen
      rw [show (GOp.try_ mv).call = mv.call from rfl, if_pos ha]
    rw [hst] at h2 h3
    have he0 : e0 = none := toAnswer_ok.1 h2
    subst he0
    exact Or.inr ⟨g', m', e1, h3, h4⟩
  · exact Or.inl ⟨g, mv, .refl g, hmv, e⟩

/-- Where the long game stands: the kos are `x`, nobody has just passed. -/
structure Stage (dbg : Bool) (n : Dim) (J : Nat) (o : Option EndGame) (g : Game) (s : State) (x : Nat × Nat → Bool) : Prop where
  sim : ∃ m, Sim dbg n m o g s
  pos : SameOn n s.pos (koField J x)
  passes : s.passes = 0

/-- The player who can take ko `k` does so, after a pass of the other if need be. The group table grows. -/
theorem Stage.take (h : Stage dbg n J o g s x) (hf : FieldOn n J) (hk : KoOn n J k)
    (hb : ∀ b, s.before = some b → b (koMove x k) = none)
    (hh : g.rule.flagIllegal.superko = true → ∀ q ∈ s.played, ¬ SameOn n q (koField J (koFlip x k))) :
    Crash dbg n g ∨ ∃ g' s', Steps dbg n g g' ∧ Stage dbg n J o g' s' (koFlip x k) ∧
      g.goban.chains.length + 1 ≤ g'.goban.chains.length ∧ s'.before = some s.pos ∧ s'.played = s.played ++ [s.pos] ∧
      g'.rule.flagIllegal = g.rule.flagIllegal := by
  have hO := koMove_onBoard (x := x) hf hk
  -- the move itself
  have main : ∀ {g s m}, Sim dbg n m o g s → SameOn n s.pos (koField J x) → s.passes ≤ 1 → s.turn = koColor x k →
      (∀ b, s.before = some b → b (koMove x k) = none) →
      (g.rule.flagIllegal.superko = true → ∀ q ∈ s.played, ¬ SameOn n q (koField J (koFlip x k))) →
      Crash dbg n g ∨ ∃ g' s', Steps dbg n g g' ∧ Stage dbg n J o g' s' (koFlip x k) ∧
      g.goban.chains.length + 1 ≤ g'.goban.chains.length ∧ s'.before = some s.pos ∧ s'.played = s.played ++ [s.pos] ∧
      g'.rule.flagIllegal = g.rule.flagIllegal := by
    intro g s m hs hpos hps ht hb hh
    rcases hs.make (.play (koMove x k).1 (koMove x k).2) hO (by omega) (ko_ok _ hf hk hpos hps ht hb hh) with h1 | ⟨g', m', e, h1, h2⟩
    · exact Or.inl h1
    · refine Or.inr ⟨g', _, Steps.one (mv := .play (koMove x k).1 (koMove x k).2) hO nofun e, ⟨⟨m', h1⟩, ?_, rfl⟩, ?_, rfl, rfl, h2⟩
      · show SameOn n (Spec.play n _ s.pos (koMove x k) s.turn) _
        rw [ht]
        exact koField_play hf hk hpos _
      · have ep := C13_accepted_is_play e
        rw [play_eq] at ep
        obtain ⟨_, _, ep⟩ := bind_eq_ok ep
        obtain ⟨cp, e2, ep⟩ := bind_eq_ok ep
        cases ep
        unfold Goban.move at e2
        obtain ⟨f, e3, e2⟩ := bind_eq_ok e2
        dsimp only
        have hiso : ∀ q, Adj (koMove x k) q → OnBoard n q → g.goban.view q ≠ some g.turn := by
          intro q hq hq' hv
          rw [hs.pos q hq', hpos q hq', koMove_around hk hq, hs.turn, ht] at hv
          exact Color.ne_opp _ (Option.some.inj hv).symm
        rw [removeCaptured_clen e2, push_isolated hs.inv hO hiso e3]
        exact Nat.le_refl _
  obtain ⟨⟨m, hs⟩, hpos, hps⟩ := h
  by_cases ht : s.turn = koColor x k
  · exact main hs hpos (by omega) ht hb hh
  · rcases hs.make .pass trivial (by omega) (by
      show (if s.passes = 2 then Spec.Answer.paused else .ok) = .ok
      rw [if_neg (by omega)]) with h1 | ⟨g1, m1, e, h1, h2⟩
    · exact Or.inl h1
    · have hgb : g1.goban = g.goban := by
        have ep := C13_accepted_is_play e
        unfold Game.play at ep
        obtain ⟨_, _, ep⟩ := bind_eq_ok ep
        rw [← Except.ok.inj ep]
      have ht' : s.turn.opp = koColor x k := by
        cases h3 : s.turn <;> cases h4 : koColor x k <;> simp_all [Color.opp]
      rcases main (s := { s with turn := s.turn.opp, passes := s.passes + 1, before := none }) h1 hpos (by show s.passes + 1 ≤ 1; omega) ht'
        (by intro b hb; cases hb) (by rw [h2]; exact hh) with h3 | ⟨g', s', h3, h4, h5, h6, h7, h8⟩
      · exact Or.inl (h3.after (Steps.one (mv := .pass) trivial nofun e))
      · exact Or.inr ⟨g', s', (Steps.one (mv := .pass) trivial nofun e).trans h3, h4, by rw [← hgb]; exact h5, h6, h7, h8.trans h2⟩

/-! ### The Gray code -/

theorem koField_inj {y : Nat × Nat → Bool} (hf : FieldOn n J) (hk : KoOn n J k) (hne : y k ≠ x k) :
    ¬ SameOn n (koField J y) (koField J x) := by
  intro h
  have h1 := h _ (koMove_onBoard (x := x) hf hk)
  rw [koField_move hk.2] at h1
  have : koMove x k = koGone y k := by
    unfold koMove koGone
    cases hx : x k <;> cases hy : y k <;> rw [hx, hy] at hne <;> simp at hne ⊢
  rw [this, koField_gone hk.2] at h1
  cases h1

/-- The kos `k0` and `ks` are taken in the order of a Gray code: `2 ^ (ks.length + 1) - 1` moves. All positions on the way differ from
the earlier ones, because they differ from each other in one of these kos and from the older ones in another. -/
theorem Stage.gray {k0 : Nat × Nat} (hf : FieldOn n J) (hk0 : KoOn n J k0) : ∀ (ks : List (Nat × Nat)), (∀ k ∈ ks, KoOn n J k) →
    (k0 :: ks).Nodup → ∀ {g : Game} {s : State} {x : Nat × Nat → Bool}, Stage dbg n J o g s x →
    (∀ b, s.before = some b → b (koMove x k0) = none) →
    (∀ q ∈ s.played, ∀ y : Nat × Nat → Bool, (∀ k, k ∉ k0 :: ks → y k = x k) → ¬ SameOn n q (koField J y)) →
    Crash dbg n g ∨ ∃ g' s' x', Steps dbg n g g' ∧ Stage dbg n J o g' s' x' ∧
      g.goban.chains.length + (2 ^ (ks.length + 1) - 1) ≤ g'.goban.chains.length ∧
      (∀ k, k ∉ k0 :: ks → x' k = x k) ∧
      (∀ k, KoOn n J k → k ≠ k0 → ∀ b, s'.before = some b → b (koMove x' k) = none) ∧
      (∀ q ∈ s'.played, q ∈ s.played ∨ ∃ y : Nat × Nat → Bool, (∀ k, k ∉ k0 :: ks → y k = x k) ∧ SameOn n q (koField J y))
  | [], _, _, g, s, x, h, hb, hh => by
    rcases h.take hf hk0 hb (fun _ q hq => hh q hq _ (fun k hk => by
      unfold koFlip; rw [if_neg (fun h => hk (by simp [h]))])) with h1 | ⟨g', s', h1, h2, h3, h4, h5, _⟩
    · exact Or.inl h1
    · refine Or.inr ⟨g', s', _, h1, h2, h3, ?_, ?_, ?_⟩
      · intro k hk
        unfold koFlip; rw [if_neg (fun h => hk (by simp [h]))]
      · intro k hk hne b hb'
        rw [h4] at hb'
        cases hb'
        have : koMove (koFlip x k0) k = koMove x k := by
          unfold koMove koFlip; rw [if_neg hne]
        rw [this, h.pos _ (koMove_onBoard hf hk)]
        exact koField_move hk.2
      · intro q hq
        rw [h5] at hq
        rcases List.mem_append.1 hq with hq | hq
        · exact Or.inl hq
        · rw [List.mem_singleton.1 hq]
          exact Or.inr ⟨x, fun _ _ => rfl, h.pos⟩
  | k1 :: ks, hks, hnd, g, s, x, h, hb, hh => by
    have hks' : ∀ k ∈ ks, KoOn n J k := fun k hk => hks k (by simp [hk])
    have hnd' : (k0 :: ks).Nodup := by
      rw [List.nodup_cons] at hnd ⊢
      exact ⟨fun h => hnd.1 (by simp [h]), (List.nodup_cons.1 hnd.2).2⟩
    have hk1 := hks k1 (by simp)
    have h10 : k1 ≠ k0 := by
      rintro rfl
      exact (List.nodup_cons.1 hnd).1 (by simp)
    have h1ks : k1 ∉ k0 :: ks := by
      intro h
      rcases List.mem_cons.1 h with h | h
      · exact h10 h
      · exact (List.nodup_cons.1 (List.nodup_cons.1 hnd).2).1 h
    have hsub : ∀ k, k ∉ k0 :: k1 :: ks → k ∉ k0 :: ks := by
      intro k hk h
      refine hk ?_
      rcases List.mem_cons.1 h with h | h
      · simp [h]
      · simp [h]
    -- the first half
    rcases Stage.gray hf hk0 ks hks' hnd' h hb (fun q hq y hy => hh q hq y (fun k hk => hy k (hsub k hk))) with
      hc | ⟨g1, s1, x1, a1, a2, a3, a4, a5, a6⟩
    · exact Or.inl hc
    -- the ko `k1`
    have hf1 : ∀ k, k ∉ k0 :: k1 :: ks → koFlip x1 k1 k = x k := by
      intro k hk
      unfold koFlip
      rw [if_neg (by rintro rfl; exact hk (by simp)), a4 k (hsub k hk)]
    have hbit : koFlip x1 k1 k1 ≠ x k1 := by
      rw [koFlip_self, a4 k1 h1ks]
      cases x k1 <;> simp
    rcases a2.take hf hk1 (a5 k1 hk1 h10) (by
      intro _ q hq hsame
      rcases a6 q hq with hq | ⟨y, hy, hs⟩
      · exact hh q hq _ hf1 hsame
      · refine koField_inj (y := y) hf hk1 ?_ (SameOn.trans (SameOn.symm hs) hsame)
        rw [hy k1 h1ks]
        exact hbit.symm) with hc | ⟨g2, s2, b1, b2, b3, b4, b5, _⟩
    · exact Or.inl (hc.after a1)
    -- the second half
    rcases Stage.gray hf hk0 ks hks' hnd' b2 (by
      intro b hb'
      rw [b4] at hb'
      cases hb'
      have : koMove (koFlip x1 k1) k0 = koMove x1 k0 := by
        unfold koMove koFlip; rw [if_neg h10.symm]
      rw [this, a2.pos _ (koMove_onBoard hf hk0)]
      exact koField_move hk0.2) (by
      intro q hq y hy hsame
      have hyk : y k1 ≠ x k1 := by rw [hy k1 h1ks]; exact hbit
      have hyx : ∀ k, k ∉ k0 :: k1 :: ks → y k = x k := fun k hk => by rw [hy k (hsub k hk), hf1 k hk]
      have old : ∀ z : Nat × Nat → Bool, (∀ k, k ∉ k0 :: ks → z k = x k) → SameOn n q (koField J z) → False := by
        intro z hz hs
        refine koField_inj (y := z) (x := y) hf hk1 ?_ (SameOn.trans (SameOn.symm hs) hsame)
        rw [hz k1 h1ks]
        exact hyk.symm
      rw [b5] at hq
      rcases List.mem_append.1 hq with hq | hq
      · rcases a6 q hq with hq | ⟨z, hz, hs⟩
        · exact hh q hq y hyx hsame
        · exact old z hz hs
      · rw [List.mem_singleton.1 hq] at hsame old
        exact old x1 a4 a2.pos) with hc | ⟨g3, s3, x3, c1, c2, c3, c4, c5, c6⟩
    · exact Or.inl (hc.after (a1.trans b1))
    refine Or.inr ⟨g3, s3, x3, (a1.trans b1).trans c1, c2, ?_, ?_, c5, ?_⟩
    · have hp : 2 ^ ((k1 :: ks).length + 1) = 2 * 2 ^ (ks.length + 1) := by
        rw [List.length_cons, Nat.pow_succ 2 (ks.length + 1), Nat.mul_comm]
      have : 0 < 2 ^ (ks.length + 1) := Nat.pos_of_ne_zero (by simp)
      omega
    · intro k hk
      rw [c4 k (hsub k hk), hf1 k hk]
    · intro q hq
      rcases c6 q hq with hq | ⟨y, hy, hs⟩
      · rw [b5] at hq
        rcases List.mem_append.1 hq with hq | hq
        · rcases a6 q hq with hq | ⟨y, hy, hs⟩
          · exact Or.inl hq
          · exact Or.inr ⟨y, fun k hk => hy k (hsub k hk), hs⟩
        · rw [List.mem_singleton.1 hq]
          exact Or.inr ⟨x1, fun k hk => a4 k (hsub k hk), a2.pos⟩
      · exact Or.inr ⟨y, fun k hk => by rw [hy k (hsub k hk), hf1 k hk], hs⟩

/-- Without super-ko two kos can be taken in turn for ever. -/
theorem Stage.forever {k0 k1 : Nat × Nat} (hf : FieldOn n J) (h0 : KoOn n J k0) (h1 : KoOn n J k1) (hne : k0 ≠ k1) (h : Stage dbg n J o g s x)
    (hsk : g.rule.flagIllegal.superko = false) (hb : ∀ b, s.before = some b → b (koMove x k0) = none) (t : Nat) :
    Crash dbg n g ∨ ∃ g' s' x', Steps dbg n g g' ∧ Stage dbg n J o g' s' x' ∧ g.goban.chains.length + t ≤ g'.goban.chains.length := by
  suffices h : ∀ t, Crash dbg n g ∨ ∃ g' s' x' a b, Steps dbg n g g' ∧ Stage dbg n J o g' s' x' ∧
      g.goban.chains.length + t ≤ g'.goban.chains.length ∧ g'.rule.flagIllegal.superko = false ∧ KoOn n J a ∧ KoOn n J b ∧ a ≠ b ∧
      (∀ q, s'.before = some q → q (koMove x' a) = none) by
    rcases h t with h | ⟨g', s', x', _, _, a1, a2, a3, _⟩
    · exact Or.inl h
    · exact Or.inr ⟨g', s', x', a1, a2, a3⟩
  intro t
  induction t with
  | zero => exact Or.inr ⟨g, s, x, k0, k1, .refl g, h, Nat.le_refl _, hsk, h0, h1, hne, hb⟩
  | succ t ih =>
    rcases ih with ih | ⟨g', s', x', a, b, a1, a2, a3, a4, ha, hb, hab, a5⟩
    · exact Or.inl ih
    · rcases a2.take hf ha a5 (fun h => by rw [a4] at h; cases h) with hc | ⟨g2, s2, b1, b2, b3, b4, _, b5⟩
      · exact Or.inl (hc.after a1)
      · refine Or.inr ⟨g2, s2, _, b, a, a1.trans b1, b2, by omega, by rw [b5]; exact a4, hb, ha, hab.symm, ?_⟩
        intro q hq
        rw [b4] at hq
        cases hq
        have : koMove (koFlip x' a) b = koMove x' b := by
          unfold koMove koFlip; rw [if_neg hab.symm]
        rw [this, a2.pos _ (koMove_onBoard hf hb)]
        exact koField_move hb.2

theorem koField_congr {y : Nat × Nat → Bool} (h : ∀ k, KoOn n J k → y k = x k) : SameOn n (koField J y) (koField J x) := by
  rintro ⟨q1, q2⟩ ⟨hq, _⟩
  dsimp only at hq
  unfold koField
  dsimp only
  by_cases h1 : 3 * J < q2
  · rw [if_pos h1, if_pos h1]
  · by_cases h2 : q1 % 2 = 1
    · rw [if_neg h1, if_neg h1, if_pos h2, if_pos h2]
    · by_cases h3 : q2 % 3 = 0
      · rw [if_neg h1, if_neg h1, if_neg h2, if_neg h2, if_pos h3, if_pos h3]
      · rw [h (q1 / 2, q2 / 3) ⟨by show 2 * (q1 / 2) < n.h; omega, by show q2 / 3 < J; omega⟩]

/-- A position of which the field is a proper extension is not a field. -/
theorem koField_sub {q : Pos} (hf : FieldOn n J) (h1 : ∀ p, OnBoard n p → q p ≠ none → koField J x p = q p)
    (h2 : ∃ p, OnBoard n p ∧ q p = none ∧ koField J x p ≠ none) (y : Nat × Nat → Bool) : ¬ SameOn n q (koField J y) := by
  intro h
  have hy : ∀ k, KoOn n J k → y k = x k := by
    intro k hk
    by_contra hne
    have hO := koGone_onBoard (x := y) hf hk
    have h3 := h1 _ hO (by rw [h _ hO, koField_gone hk.2]; simp)
    have : koGone y k = koMove x k := by
      unfold koMove koGone
      cases hx : x k <;> cases hy : y k <;> rw [hx, hy] at hne <;> simp at hne ⊢
    rw [h _ hO, koField_gone hk.2, this, koField_move hk.2] at h3
    cases h3
  obtain ⟨p, hp, h3, h4⟩ := h2
  rw [← koField_congr hy p hp, ← h p hp] at h4
  exact h4 h3

/-- Seventeen kos, in the order of the rows. -/
def koList (J : Nat) : List (Nat × Nat) := (List.range 16).map (fun i => ((i + 1) / J, (i + 1) % J))

theorem koList_on (hJ : 17 ≤ J * ((n.h + 1) / 2)) {k : Nat × Nat} (hk : k ∈ (0, 0) :: koList J) : KoOn n J k := by
  have h0 : 0 < J := by
    rcases Nat.eq_zero_or_pos J with rfl | h
    · simp at hJ
    · exact h
  have main : ∀ i, i < 17 → KoOn n J (i / J, i % J) := by
    intro i hi
    refine ⟨?_, Nat.mod_lt _ h0⟩
    have : i / J < (n.h + 1) / 2 := (Nat.div_lt_iff_lt_mul h0).2 (by rw [Nat.mul_comm]; omega)
    show 2 * (i / J) < n.h
    omega
  rcases List.mem_cons.1 hk with rfl | hk
  · have := main 0 (by omega)
    simpa using this
  · obtain ⟨i, hi, rfl⟩ := List.mem_map.1 hk
    exact main (i + 1) (by have := List.mem_range.1 hi; omega)

theorem koList_nodup : ((0, 0) :: koList J).Nodup := by
  have inj : ∀ i j, (i / J, i % J) = (j / J, j % J) → i = j := by
    intro i j h
    rw [← Nat.div_add_mod i J, ← Nat.div_add_mod j J, (Prod.mk.inj h).1, (Prod.mk.inj h).2]
  refine List.nodup_cons.2 ⟨?_, ?_⟩
  · intro h
    obtain ⟨i, _, hi⟩ := List.mem_map.1 h
    have := inj (i + 1) 0 (by rw [hi]; simp)
    omega
  · refine List.Pairwise.map _ ?_ List.nodup_range
    intro i j hij h
    have := inj _ _ h
    omega

/-! ### C72 -/

/-- A game of `try_play` calls in which nobody has resigned and a `try_play` panics is not over. -/
theorem goes_on {g0 : Game} {ms : List Move} {es : List (Option PlayError)} {mv : Move} (h : Legal dbg n m g0) (hms : ∀ mv ∈ ms, Move.OnBoard n mv)
    (e : g0.run dbg (ms.map GOp.try_) = .ok (es, g)) (ho : g.outcome = none) (ep : g.tryPlay dbg mv = panic) : g.isOver = false := by
  obtain ⟨m', hl⟩ := Legal.run _ h (by
    intro c hc
    obtain ⟨mv, h1, rfl⟩ := List.mem_map.1 hc
    exact hms mv h1) e
  obtain ⟨_, s, _, _, hps, hs⟩ := hl.sim
  have h2 : g.passes ≠ 2 := by
    intro h2
    unfold Game.tryPlay at ep
    rw [if_pos h2] at ep
    cases ep
  have := hs.passes
  unfold Game.isOver
  rw [ho]
  simp only [Option.isSome_none, Bool.false_eq_true, if_false, decide_eq_false_iff_not]
  omega

/-- **C72**. On every board with room for seventeen kos (11 × 11 and larger squares, for example) and under every rule, the super-ko
rules included, there is a game of `try_play` calls from the new game, all accepted, after which the game is not over and an on-board `try_play`
panics. -/
theorem C72_crash (dbg : Bool) (hfit : n.Fits) (hh : n.h ≤ 19) (hw : n.w ≤ 19) (hroom : 17 ≤ (n.w - 1) / 3 * ((n.h + 1) / 2)) (rule : Rule) :
    ∃ (g0 : Game) (ms : List Move) (es : List (Option PlayError)) (g : Game) (mv : Move),
      Game.new (.custom n.h n.w) rule = .ok g0 ∧ (∀ mv ∈ ms, Move.OnBoard n mv) ∧
      g0.run dbg (ms.map GOp.try_) = .ok (es, g) ∧ (∀ e ∈ es, e = none) ∧
      g.isOver = false ∧ Move.OnBoard n mv ∧ g.tryPlay dbg mv = panic := by
  have hsz : GobanSizes.toSize (.custom n.h n.w) = n.sz := by
    show (u8 n.h, u8 n.w) = _
    unfold u8 Dim.sz
    rw [Nat.mod_eq_of_lt (by omega), Nat.mod_eq_of_lt (by omega)]
  obtain ⟨_, hx⟩ | ⟨_, g0, e0, hb⟩ := C53_new_partial (.custom n.h n.w) rule (by show n.h < 256; omega) (by show n.w < 256; omega)
  · exact absurd ⟨hh, hw⟩ hx
  have h0 : Fresh dbg n 0 g0 := .new hfit hsz e0
  have hempty : ∀ p, OnBoard n p → g0.goban.view p = none := fun p hp =>
    (getColor_none h0.spec.board.inv.1 hp).1 (hb.empty p hp)
  have harea : n.area ≤ 361 := by
    have : n.h * n.w ≤ 19 * 19 := Nat.mul_le_mul hh hw
    exact this
  have hf : FieldOn n ((n.w - 1) / 3) := by
    have h1 : 0 < (n.w - 1) / 3 := by
      rcases Nat.eq_zero_or_pos ((n.w - 1) / 3) with h | h
      · rw [h] at hroom; omega
      · exact h
    have h2 : 2 ≤ (n.h + 1) / 2 := by
      by_contra h
      have : (n.w - 1) / 3 * ((n.h + 1) / 2) ≤ (n.w - 1) / 3 * 1 := Nat.mul_le_mul_left _ (by omega)
      omega
    exact ⟨by omega, by omega⟩
  obtain ⟨cs, g, s, _, hpl, hgr, hps⟩ := grow g0 h0 hempty harea _ _ rfl (koField_noDead hf (fun _ => false))
  obtain ⟨h1, ⟨es, e, hes⟩, k, hk, hs⟩ := hpl
  obtain ⟨ms, rfl, hms⟩ := Played.moves h1
  have hsteps : Steps dbg n g0 g := ⟨ms, es, hms, e, hes, by rw [hs.outcome, hgr.resigned]⟩
  have hk0 : KoOn n ((n.w - 1) / 3) (0, 0) := koList_on hroom (by simp)
  have hc : Crash dbg n g0 := by
    rcases Stage.gray (dbg := dbg) hf hk0 (koList ((n.w - 1) / 3)) (fun k hk => koList_on hroom (by simp [hk])) koList_nodup
      ⟨⟨k, hs⟩, hgr.pos, hps⟩ (by
        intro b hb'
        have hO := koMove_onBoard (x := fun _ => false) hf hk0
        by_contra hne
        refine hgr.before b hb' _ hO hne ?_
        rw [hgr.pos _ hO]
        exact koField_move hk0.2) (fun q hq y _ => koField_sub hf (hgr.earlier q hq).1 (hgr.earlier q hq).2 y) with
      hc | ⟨g', s', x', _, ⟨⟨m', hs'⟩, _, _⟩, hlen, _⟩
    · exact hc.after hsteps
    · have h1 := hs'.inv.rep.few
      have h2 : (koList ((n.w - 1) / 3)).length = 16 := by unfold koList; simp
      rw [h2] at hlen
      have : 2 ^ (16 + 1) = 131072 := by decide
      omega
  obtain ⟨g', mv, ⟨ms', es', a1, a2, a3, a4⟩, b1, b2⟩ := hc
  exact ⟨g0, ms', es', g', mv, e0, a1, a2, a3,
    goes_on (.fresh h0 (fun p hp h => absurd (hempty p hp) h)) a1 a2 (a4.trans hb.goesOn.2) b2, b1, b2⟩

/-- For example on the boards of 13 × 13 and 19 × 19 under the Chinese rule, which refuses ko, suicide and all repetitions. -/
theorem C72_chinese (dbg : Bool) : ∀ n ∈ [13, 19], ∃ (g0 : Game) (ms : List Move) (es : List (Option PlayError)) (g : Game) (mv : Move),
      Game.new (.custom n n) CHINESE = .ok g0 ∧ (∀ mv ∈ ms, Move.OnBoard n mv) ∧
      g0.run dbg (ms.map GOp.try_) = .ok (es, g) ∧ (∀ e ∈ es, e = none) ∧
      g.isOver = false ∧ Move.OnBoard n mv ∧ g.tryPlay dbg mv = panic := by
  intro n hn
  simp only [List.mem_cons, List.not_mem_nil, or_false] at hn
  rcases hn with rfl | rfl
  · exact C72_crash (n := (13 : Nat)) dbg (by decide) (by decide) (by decide) (by decide) CHINESE
  · exact C72_crash (n := (19 : Nat)) dbg (by decide) (by decide) (by decide) (by decide) CHINESE

end Model
