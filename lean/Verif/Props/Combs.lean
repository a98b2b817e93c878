import Verif.Props.LongGame
import Verif.Props.Strategy
/-!
# Legal games that crash on smaller boards: C72

Black and White take the whole board from each other in turn. Before each capture the stones of one player stand in a comb, a column
with teeth of chosen lengths, and the other player fills the rest of the board but one point. The lengths of the teeth count through all
numbers with a given number of digits, so that no position after a capture comes twice, and no super-ko test has anything to refuse.
-/

namespace Model
open Spec (OnBoard Adj Linked HasLiberty NoDead place SameOn Pos Suicide State Call Joins)

variable {dbg : Bool} {n : Dim} {m : Nat} {o : Option EndGame} {g : Game} {s : State}

/-! ### Moves of a calm game -/

/-- Nobody has just passed and no point is refused as a recapture. -/
structure Calm (dbg : Bool) (n : Dim) (o : Option EndGame) (g : Game) (s : State) : Prop where
  sim : ∃ m, Sim dbg n m o g s
  passes : s.passes = 0
  ko : ∀ p, OnBoard n p → ¬ Spec.KoSeen n s p

/-- A move by either player, after a pass of the other if need be. -/
theorem Calm.move (h : Calm dbg n o g s) {p : Coord} {c : Color} {R : Pos} (hp : OnBoard n p) (he : s.pos p = none)
    (hR : ∀ sa, SameOn n (Spec.play n sa s.pos p c) R) (hsu : ¬ Suicide n s.pos p c)
    (hey : ∃ r, Adj p r ∧ OnBoard n r ∧ s.pos r ≠ some c)
    (hrep : Spec.Captures n s.pos p c → ∀ q ∈ s.played, ¬ SameOn n q R)
    (hnext : ∀ a, OnBoard n a → ¬ ∀ r, OnBoard n r → ((s.pos r = some c.opp ∧ R r = none) ↔ r = a)) :
    Crash dbg n g ∨ ∃ g' s', Steps dbg n g g' ∧ Calm dbg n o g' s' ∧ SameOn n s'.pos R ∧
      g.goban.chains.length ≤ g'.goban.chains.length ∧
      (¬ Joins n s.pos p c → g.goban.chains.length + 1 ≤ g'.goban.chains.length) ∧ s'.played = s.played ++ [s.pos] := by
  have main : ∀ {g s' m}, Sim dbg n m o g s' → s'.pos = s.pos → s'.played = s.played → s'.passes ≤ 1 → s'.turn = c →
      (∀ p, OnBoard n p → ¬ Spec.KoSeen n s' p) →
      Crash dbg n g ∨ ∃ g' s', Steps dbg n g g' ∧ Calm dbg n o g' s' ∧ SameOn n s'.pos R ∧
      g.goban.chains.length ≤ g'.goban.chains.length ∧
      (¬ Joins n s.pos p c → g.goban.chains.length + 1 ≤ g'.goban.chains.length) ∧ s'.played = s.played ++ [s.pos] := by
    intro g s' m hs hpos hpl hps ht hko
    have hans : ∀ r, Spec.answerSeen n r s' (.play p) = .ok := by
      intro r
      unfold Spec.answerSeen
      dsimp only
      rw [if_neg (by omega), if_neg (by rw [hpos]; simp [he]), if_neg, if_neg, if_neg, if_neg]
      · rintro ⟨_, _, h2, b, hb, hs⟩
        rw [hpos, ht] at h2 hs
        rw [hpl] at hb
        exact hrep h2 b hb (SameOn.trans (SameOn.symm hs) (hR _))
      · rintro ⟨_, _, h2, _⟩
        obtain ⟨r, h3, h4, h5⟩ := hey
        have := h2 r h3 h4
        rw [hpos, ht] at this
        exact h5 this
      · rintro ⟨_, h1⟩
        exact hko p hp h1
      · rintro ⟨_, h1⟩
        rw [hpos, ht] at h1
        exact hsu h1
    rcases hs.make (.play p.1 p.2) hp (by omega) (hans _) with h1 | ⟨g', m', e, h1, h2⟩
    · exact Or.inl h1
    · refine Or.inr ⟨g', _, Steps.one (mv := .play p.1 p.2) hp nofun e, ⟨⟨m', h1⟩, rfl, ?_⟩, ?_, ?_⟩
      · rintro a ha ⟨⟨b, hb, h3⟩, _⟩
        obtain rfl : s'.pos = b := by injection hb
        refine hnext a ha (fun r hr => ?_)
        rw [← h3 r hr]
        have h4 : (Spec.apply n g.rule.flagIllegal.forbidden s' (Move.play p.1 p.2).call).pos r = R r := by
          show Spec.play n _ s'.pos p s'.turn r = R r
          rw [hpos, ht]
          exact hR _ r hr
        have h5 : (Spec.apply n g.rule.flagIllegal.forbidden s' (Move.play p.1 p.2).call).turn = c.opp := by
          show s'.turn.opp = _
          rw [ht]
        rw [h4, h5, hpos]
      · show SameOn n (Spec.play n _ s'.pos p s'.turn) _
        rw [hpos, ht]
        exact hR _
      · have hpl' : (Spec.apply n g.rule.flagIllegal.forbidden s' (Move.play p.1 p.2).call).played = s.played ++ [s.pos] := by
          show s'.played ++ [s'.pos] = _
          rw [hpl, hpos]
        have ep := C13_accepted_is_play e
        rw [play_eq] at ep
        obtain ⟨_, _, ep⟩ := bind_eq_ok ep
        obtain ⟨cp, e2, ep⟩ := bind_eq_ok ep
        cases ep
        dsimp only
        have hv : g.goban.view p = none := by rw [hs.pos p hp, hpos]; exact he
        rcases move_exact (dbg := dbg) (sa := !g.rule.flagIllegal.suicide) (c := g.turn) hs.inv hp hv with ⟨t, e3, _, _, hl⟩ | ⟨e3, _⟩
        · rw [show (p.1, p.2) = p from rfl, e3] at e2
          cases e2
          refine ⟨by omega, fun hj => ?_, hpl'⟩
          have hj' : ¬ Joins n g.goban.view p g.turn := by
            intro hj'
            have := joins_congr_mp hs.pos hj'
            rw [hs.turn, ht, hpos] at this
            exact hj this
          rw [hl, if_neg hj']
          exact Nat.le_refl _
        · rw [show (p.1, p.2) = p from rfl, e3] at e2; cases e2
  obtain ⟨⟨m, hs⟩, hps, hko⟩ := h
  by_cases ht : s.turn = c
  · exact main hs rfl rfl (by omega) ht hko
  · rcases hs.make .pass trivial (by omega) (by
      show (if s.passes = 2 then Spec.Answer.paused else .ok) = .ok
      rw [if_neg (by omega)]) with h1 | ⟨g1, m1, e, h1, h2⟩
    · exact Or.inl h1
    · have hgb : g1.goban = g.goban := by
        have ep := C13_accepted_is_play e
        unfold Game.play at ep
        obtain ⟨_, _, ep⟩ := bind_eq_ok ep
        rw [← Except.ok.inj ep]
      have ht' : s.turn.opp = c := by
        cases h3 : s.turn <;> cases c <;> simp_all [Color.opp]
      rcases main (s' := { s with turn := s.turn.opp, passes := s.passes + 1, before := none }) h1 rfl rfl (by show s.passes + 1 ≤ 1; omega) ht'
        (by rintro a _ ⟨⟨b, hb, _⟩, _⟩; cases hb) with h3 | ⟨g', s', h3, h4, h5, h6, h7, h8⟩
      · exact Or.inl (h3.after (Steps.one (mv := .pass) trivial nofun e))
      · rw [hgb] at h6 h7
        exact Or.inr ⟨g', s', (Steps.one (mv := .pass) trivial nofun e).trans h3, h4, h5, h6, h7, h8⟩

/-- A stone that captures nothing, with a neighbour that is not of its colour. -/
theorem Calm.put (h : Calm dbg n o g s) {p : Coord} {c : Color} (hp : OnBoard n p) (he : s.pos p = none)
    (hd : NoDead n (place s.pos p c)) (hey : ∃ r, Adj p r ∧ OnBoard n r ∧ s.pos r ≠ some c) :
    Crash dbg n g ∨ ∃ g' s', Steps dbg n g g' ∧ Calm dbg n o g' s' ∧ SameOn n s'.pos (place s.pos p c) ∧
      g.goban.chains.length ≤ g'.goban.chains.length ∧
      (¬ Joins n s.pos p c → g.goban.chains.length + 1 ≤ g'.goban.chains.length) ∧ s'.played = s.played ++ [s.pos] := by
  have hrem : ∀ c', SameOn n (Spec.removeDead n (place s.pos p c) c') (place s.pos p c) := fun c' => removeDead_noDead hd c'
  refine h.move hp he ?_ ?_ hey ?_ ?_
  · intro sa
    unfold Spec.play
    dsimp only
    split
    · exact SameOn.trans (removeDead_congr (hrem _) _) (hrem _)
    · exact hrem _
  · intro h1
    refine h1 ?_
    rw [hasLiberty_congr_iff (hrem _) hp]
    exact hd p hp (by rw [place_self]; simp)
  · rintro ⟨q, hq, h1, h2⟩
    rw [hrem _ q hq, place_ne (by rintro rfl; rw [he] at h1; cases h1), h1] at h2
    cases h2
  · intro a ha h1
    obtain ⟨h2, h3⟩ := (h1 a ha).2 rfl
    rw [place_ne (by rintro rfl; rw [he] at h2; cases h2), h2] at h3
    cases h3

theorem least_of {α : Type} {Q : α → Prop} (ρ : α → Nat) : ∀ k p, ρ p ≤ k → Q p → ∃ p, Q p ∧ ∀ q, Q q → ρ p ≤ ρ q
  | 0, p, hk, hp => ⟨p, hp, fun q _ => by omega⟩
  | k + 1, p, hk, hp => by
    by_cases h : ∃ q, Q q ∧ ρ q < ρ p
    · obtain ⟨q, h1, h2⟩ := h
      exact least_of ρ k q (by omega) h1
    · exact ⟨p, hp, fun q hq => by
        by_contra hlt
        exact h ⟨q, hq, by omega⟩⟩

/-- Filling up to a position of which the present one is a part. `ρ` orders the stones that are missing, so that each has a neighbour
which is not of its colour when it is put. The positions on the way contain the present one. -/
theorem Calm.fill (ρ : Coord → Nat) : ∀ (k : Nat) (P : Pos), stoneCount n P = k → NoDead n P → ∀ {g s}, Calm dbg n o g s →
    (∀ q, OnBoard n q → s.pos q ≠ none → P q = s.pos q) →
    (∀ q, OnBoard n q → P q ≠ none → s.pos q = none → ∃ r, Adj q r ∧ OnBoard n r ∧ (P r ≠ P q ∨ (s.pos r = none ∧ ρ r < ρ q))) →
    Crash dbg n g ∨ ∃ g' s', Steps dbg n g g' ∧ Calm dbg n o g' s' ∧ SameOn n s'.pos P ∧
      g.goban.chains.length ≤ g'.goban.chains.length ∧
      ∀ b ∈ s'.played, b ∈ s.played ∨ ∀ q, OnBoard n q → s.pos q ≠ none → b q = s.pos q := by
  intro k
  induction k with
  | zero =>
    intro P hk hd g s h hsub _
    refine Or.inr ⟨g, s, .refl g, h, ?_, Nat.le_refl _, fun b hb => Or.inl hb⟩
    intro q hq
    by_contra hne
    by_cases h1 : s.pos q = none
    · rw [h1] at hne
      exact stoneCount_pos hq (fun h => hne h.symm) hk
    · exact hne (hsub q hq h1).symm
  | succ k ih =>
    intro P hk hd g s h hsub hord
    by_cases hall : ∀ q, OnBoard n q → P q ≠ none → s.pos q ≠ none
    · refine Or.inr ⟨g, s, .refl g, h, ?_, Nat.le_refl _, fun b hb => Or.inl hb⟩
      intro q hq
      by_contra hne
      by_cases h1 : s.pos q = none
      · rw [h1] at hne
        exact hall q hq (fun h => hne h.symm) h1
      · exact hne (hsub q hq h1).symm
    · -- a missing stone of least rank
      obtain ⟨p0, hp0⟩ : ∃ p, OnBoard n p ∧ P p ≠ none ∧ s.pos p = none := by
        by_contra hcon
        exact hall (fun q hq h1 h2 => hcon ⟨q, hq, h1, h2⟩)
      obtain ⟨p, ⟨hp, hne, hmiss⟩, hmin⟩ := least_of (Q := fun p => OnBoard n p ∧ P p ≠ none ∧ s.pos p = none) ρ _ p0 (Nat.le_refl _) hp0
      obtain ⟨c, hc⟩ := Option.ne_none_iff_exists'.1 hne
      have hk' : stoneCount n (without P p) = k := by have := stoneCount_place hp hc; omega
      have hsubP : ∀ q, without P p q = none ∨ without P p q = P q := fun q => by
        unfold without; split
        · exact Or.inl rfl
        · exact Or.inr rfl
      have hwne : ∀ {q}, q ≠ p → without P p q = P q := fun h => by unfold without; rw [if_neg h]
      have hwp : without P p p = none := by unfold without; rw [if_pos rfl]
      rcases ih _ hk' (noDead_sub hd hsubP) h (by
          intro q hq h1
          rw [hwne (by rintro rfl; exact h1 hmiss)]
          exact hsub q hq h1) (by
          intro q hq h1 h2
          have hqp : q ≠ p := by rintro rfl; exact h1 hwp
          rw [hwne hqp] at h1 ⊢
          obtain ⟨r, h3, h4, h5⟩ := hord q hq h1 h2
          refine ⟨r, h3, h4, ?_⟩
          by_cases hrp : r = p
          · left
            rw [hrp, hwp]
            exact h1.symm
          · rw [hwne hrp]; exact h5) with hcr | ⟨g1, s1, a1, a2, a3, a4, a5⟩
      · exact Or.inl hcr
      have hplace : SameOn n (place s1.pos p c) P := by
        rw [← place_without hc]
        exact place_congr a3 p c
      rcases a2.put hp (c := c) (by rw [a3 p hp, hwp]) ((noDead_congr hplace).2 hd) (by
          obtain ⟨r, h3, h4, h5⟩ := hord p hp hne hmiss
          refine ⟨r, h3, h4, ?_⟩
          rw [a3 r h4]
          intro h6
          have hrp : r ≠ p := by rintro rfl; rw [hwp] at h6; cases h6
          rw [hwne hrp] at h6
          rcases h5 with h5 | ⟨h5, h7⟩
          · rw [h6, hc] at h5; exact h5 rfl
          · have := hmin r ⟨h4, by rw [h6]; simp, h5⟩
            omega) with hcr | ⟨g2, s2, b1, b2, b3, b4, _, b6⟩
      · exact Or.inl (hcr.after a1)
      refine Or.inr ⟨g2, s2, a1.trans b1, b2, SameOn.trans b3 hplace, Nat.le_trans a4 b4, ?_⟩
      intro b hb
      rw [b6] at hb
      rcases List.mem_append.1 hb with hb | hb
      · exact a5 b hb
      · rw [List.mem_singleton.1 hb]
        refine Or.inr (fun q hq h1 => ?_)
        rw [a3 q hq, hwne (by rintro rfl; exact h1 hmiss)]
        exact hsub q hq h1

/-! ### Combs -/

/-- The columns counted from the left, or from the right. -/
def combCol (n : Dim) (f : Bool) (j : Nat) : Nat := if f then n.w - 1 - j else j

/-- The point in row `r` and column `j`, counted from the left or from the right. -/
def combAt (n : Dim) (f : Bool) (r j : Nat) : Coord := (r, combCol n f j)

/-- A comb of colour `c` along one side, with a gap in row 1, and the other colour everywhere else. -/
def comb (n : Dim) (f : Bool) (c : Color) (t : Nat → Nat) : Pos := fun p =>
  if p.1 = 1 then (if combCol n f p.2 = 0 then none else some c.opp)
  else if combCol n f p.2 ≤ t p.1 then some c else some c.opp

/-- The comb alone, the gap closed. -/
def combLeft (n : Dim) (f : Bool) (c : Color) (t : Nat → Nat) : Pos := fun p =>
  if p.1 = 1 then (if combCol n f p.2 = 0 then some c else none)
  else if combCol n f p.2 ≤ t p.1 then some c else none

/-- Room for combs on both sides. -/
structure CombOn (n : Dim) (t : Nat → Nat) : Prop where
  h : 3 ≤ n.h
  w : 4 ≤ n.w
  t : ∀ r, 2 * t r + 2 ≤ n.w

variable {f : Bool} {c : Color} {t t' : Nat → Nat} {r j : Nat}

theorem combCol_twice (hj : j < n.w) : combCol n f (combCol n f j) = j := by
  unfold combCol; cases f <;> simp; omega

theorem combCol_lt (hj : j < n.w) : combCol n f j < n.w := by
  unfold combCol; split <;> omega

theorem combCol_not (hj : j < n.w) : combCol n (!f) j = n.w - 1 - combCol n f j := by
  unfold combCol; cases f <;> simp; omega

theorem combAt_on (hr : r < n.h) (hj : j < n.w) : OnBoard n (combAt n f r j) := ⟨hr, combCol_lt hj⟩

theorem combAt_ex {p : Coord} (hp : OnBoard n p) : ∃ r j, r < n.h ∧ j < n.w ∧ p = combAt n f r j :=
  ⟨p.1, combCol n f p.2, hp.1, combCol_lt hp.2, by unfold combAt; rw [combCol_twice hp.2]⟩

theorem combAt_not (hj : j < n.w) : combAt n (!f) r j = combAt n f r (n.w - 1 - j) := by
  unfold combAt combCol; cases f <;> simp; omega

theorem combAt_side (hj : j + 1 < n.w) : Adj (combAt n f r j) (combAt n f r (j + 1)) := by
  refine Or.inl ⟨rfl, ?_⟩
  unfold combAt combCol; cases f <;> simp; omega

theorem combAt_side' (hj : j + 1 < n.w) : Adj (combAt n f r (j + 1)) (combAt n f r j) := by
  refine Or.inl ⟨rfl, ?_⟩
  unfold combAt combCol; cases f <;> simp; omega

theorem combAt_down : Adj (combAt n f r j) (combAt n f (r + 1) j) := Or.inr ⟨rfl, by unfold combAt; simp⟩

theorem combAt_up : Adj (combAt n f (r + 1) j) (combAt n f r j) := Or.inr ⟨rfl, by unfold combAt; simp⟩

theorem comb_at (hj : j < n.w) : comb n f c t (combAt n f r j) =
    if r = 1 then (if j = 0 then none else some c.opp) else if j ≤ t r then some c else some c.opp := by
  unfold comb combAt
  dsimp only
  rw [combCol_twice hj]

theorem combLeft_at (hj : j < n.w) : combLeft n f c t (combAt n f r j) =
    if r = 1 then (if j = 0 then some c else none) else if j ≤ t r then some c else none := by
  unfold combLeft combAt
  dsimp only
  rw [combCol_twice hj]

/-- A path of points of one value. -/
theorem linked_path {pos : Pos} {a : Nat → Coord} {v : Option Color} : ∀ k, (∀ i ≤ k, OnBoard n (a i) ∧ pos (a i) = v) →
    (∀ i < k, Adj (a i) (a (i + 1))) → Linked n pos (a 0) (a k)
  | 0, _, _ => .refl _
  | k + 1, h1, h2 => (linked_path k (fun i hi => h1 i (by omega)) (fun i hi => h2 i (by omega))).step (h2 k (by omega)) (h1 (k + 1) (by omega)).1
      (by rw [(h1 (k + 1) (by omega)).2, (h1 k (by omega)).2])

/-- Along a row, towards smaller columns. -/
theorem linked_row {pos : Pos} {v : Option Color} (hr : r < n.h) (i : Nat) : ∀ k, i + k < n.w → (∀ x, i ≤ x → x ≤ i + k → pos (combAt n f r x) = v) →
    Linked n pos (combAt n f r (i + k)) (combAt n f r i)
  | 0, _, _ => .refl _
  | k + 1, hk, h => by
    have h1 : Linked n pos (combAt n f r (i + k + 1)) (combAt n f r (i + k)) :=
      (Linked.refl _).step (combAt_side' hk) (combAt_on hr (by omega)) (by rw [h (i + k) (by omega) (by omega), h (i + k + 1) (by omega) (by omega)])
    exact linked_trans h1 (linked_row hr i k (by omega) (fun x h1 h2 => h x h1 (by omega)))

/-- Along a column, towards smaller rows. -/
theorem linked_col {pos : Pos} {v : Option Color} (hj : j < n.w) (i : Nat) : ∀ k, i + k < n.h → (∀ x, i ≤ x → x ≤ i + k → pos (combAt n f x j) = v) →
    Linked n pos (combAt n f (i + k) j) (combAt n f i j)
  | 0, _, _ => .refl _
  | k + 1, hk, h => by
    have h1 : Linked n pos (combAt n f (i + k + 1) j) (combAt n f (i + k) j) :=
      (Linked.refl _).step combAt_up (combAt_on (by omega) hj) (by rw [h (i + k) (by omega) (by omega), h (i + k + 1) (by omega) (by omega)])
    exact linked_trans h1 (linked_col hj i k (by omega) (fun x h1 h2 => h x h1 (by omega)))

theorem comb_noDead (hc : CombOn n t) : NoDead n (comb n f c t) := by
  intro p hp hne
  obtain ⟨r, j, hr, hj, rfl⟩ := combAt_ex (f := f) hp
  have hh := hc.h
  have hw := hc.w
  have hgap : comb n f c t (combAt n f 1 0) = none := by rw [comb_at (by omega)]; rfl
  have hgo : OnBoard n (combAt n f 1 0) := combAt_on (by omega) (by omega)
  -- the other colour of row 1
  have row1 : ∀ j', 0 < j' → j' < n.w → Linked n (comb n f c t) (combAt n f 1 j') (combAt n f 1 1) := by
    intro j' h1 h2
    obtain ⟨k, rfl⟩ : ∃ k, j' = 1 + k := ⟨j' - 1, by omega⟩
    exact linked_row (v := some c.opp) (by omega) 1 k h2 (fun x hx hx' => by
      rw [comb_at (by omega), if_pos rfl, if_neg (by omega)])
  have fin1 : ∀ {q}, Linked n (comb n f c t) q (combAt n f 1 1) → HasLiberty n (comb n f c t) q := fun hq =>
    ⟨_, _, hq, combAt_side' (by omega), hgo, hgap⟩
  by_cases h1 : r = 1
  · subst h1
    rw [comb_at hj, if_pos rfl] at hne
    have : j ≠ 0 := by rintro rfl; exact hne rfl
    exact fin1 (row1 j (by omega) hj)
  have ht := hc.t r
  by_cases h2 : j ≤ t r
  · -- the comb
    have hrow : Linked n (comb n f c t) (combAt n f r j) (combAt n f r 0) := by
      have := linked_row (f := f) (pos := comb n f c t) (v := some c) hr 0 j (by omega) (fun x hx hx' => by
        rw [comb_at (by omega), if_neg h1, if_pos (by omega)])
      rwa [Nat.zero_add] at this
    by_cases h3 : r = 0
    · subst h3
      exact ⟨_, _, hrow, combAt_down, hgo, hgap⟩
    · obtain ⟨k, rfl⟩ : ∃ k, r = 2 + k := ⟨r - 2, by omega⟩
      refine ⟨_, _, linked_trans hrow (linked_col (v := some c) (by omega) 2 k hr (fun x hx hx' => by
        rw [comb_at (by omega), if_neg (by omega), if_pos (by omega)])), combAt_up, hgo, hgap⟩
  · -- the rest
    have hlast : ∀ x, comb n f c t (combAt n f x (n.w - 1)) = some c.opp := by
      intro x
      have := hc.t x
      rw [comb_at (by omega)]
      split
      · rw [if_neg (by omega)]
      · rw [if_neg (by omega)]
    have hrow : Linked n (comb n f c t) (combAt n f r j) (combAt n f r (n.w - 1)) := by
      refine linked_symm (combAt_on hr (by omega)) ?_
      have := linked_row (f := f) (pos := comb n f c t) (v := some c.opp) hr j (n.w - 1 - j) (by omega) (fun x hx hx' => by
        rw [comb_at (by omega), if_neg h1, if_neg (by omega)])
      rwa [show j + (n.w - 1 - j) = n.w - 1 by omega] at this
    refine fin1 (linked_trans (linked_trans hrow ?_) (row1 (n.w - 1) (by omega) (by omega)))
    by_cases h3 : r = 0
    · subst h3
      refine linked_symm (combAt_on (by omega) (by omega)) ?_
      exact linked_col (v := some c.opp) (by omega) 0 1 (by omega) (fun x _ _ => hlast x)
    · obtain ⟨k, rfl⟩ : ∃ k, r = 1 + k := ⟨r - 1, by omega⟩
      exact linked_col (v := some c.opp) (by omega) 1 k hr (fun x _ _ => hlast x)

theorem combLeft_noDead (hc : CombOn n t) : NoDead n (combLeft n f c t) := by
  intro p hp hne
  obtain ⟨r, j, hr, hj, rfl⟩ := combAt_ex (f := f) hp
  have hh := hc.h
  have hw := hc.w
  have ht := hc.t r
  have hj' : (r = 1 ∧ j = 0) ∨ (r ≠ 1 ∧ j ≤ t r) := by
    rw [combLeft_at hj] at hne
    by_cases h1 : r = 1
    · rw [if_pos h1] at hne
      by_cases h2 : j = 0
      · exact Or.inl ⟨h1, h2⟩
      · rw [if_neg h2] at hne; exact absurd rfl hne
    · rw [if_neg h1] at hne
      by_cases h2 : j ≤ t r
      · exact Or.inr ⟨h1, h2⟩
      · rw [if_neg h2] at hne; exact absurd rfl hne
  have hrow : Linked n (combLeft n f c t) (combAt n f r j) (combAt n f r 0) := by
    have := linked_row (f := f) (pos := combLeft n f c t) (v := some c) hr 0 j (by omega) (fun x hx hx' => by
      rw [combLeft_at (by omega)]
      rcases hj' with ⟨h1, h2⟩ | ⟨h1, h2⟩
      · rw [if_pos h1, if_pos (by omega)]
      · rw [if_neg h1, if_pos (by omega)])
    rwa [Nat.zero_add] at this
  have hcol : ∀ x, combLeft n f c t (combAt n f x 0) = some c := by
    intro x
    rw [combLeft_at (by omega)]
    split
    · rw [if_pos rfl]
    · rw [if_pos (by omega)]
  refine ⟨_, combAt n f 1 1, linked_trans hrow (?_ : Linked n _ _ (combAt n f 1 0)), combAt_side (by omega), combAt_on (by omega) (by omega), ?_⟩
  · by_cases h3 : r = 0
    · subst h3
      refine linked_symm (combAt_on (by omega) (by omega)) ?_
      exact linked_col (v := some c) (by omega) 0 1 (by omega) (fun x _ _ => hcol x)
    · obtain ⟨k, rfl⟩ : ∃ k, r = 1 + k := ⟨r - 1, by omega⟩
      exact linked_col (v := some c) (by omega) 1 k hr (fun x _ _ => hcol x)
  · rw [combLeft_at (by omega), if_pos rfl, if_neg (by omega)]

/-- The gap closed: the other colour is captured to the last stone. -/
theorem comb_take (hc : CombOn n t) (sa : Bool) {pos : Pos} (hpos : SameOn n pos (comb n f c t)) :
    SameOn n (Spec.removeDead n (place pos (combAt n f 1 0) c) c.opp) (combLeft n f c t) ∧
    SameOn n (Spec.play n sa pos (combAt n f 1 0) c) (combLeft n f c t) := by
  have hh := hc.h
  have hw := hc.w
  have full : ∀ q, OnBoard n q → place (comb n f c t) (combAt n f 1 0) c q ≠ none := by
    intro q hq
    obtain ⟨r, j, hr, hj, rfl⟩ := combAt_ex (f := f) hq
    by_cases h1 : combAt n f r j = combAt n f 1 0
    · rw [h1, place_self]; simp
    · rw [place_ne h1, comb_at hj]
      by_cases h2 : r = 1
      · rw [if_pos h2, if_neg (by rintro rfl; exact h1 (by rw [h2]))]; simp
      · rw [if_neg h2]; split <;> simp
  have h1 : SameOn n (Spec.removeDead n (place pos (combAt n f 1 0) c) c.opp) (combLeft n f c t) := by
    refine SameOn.trans (removeDead_congr (place_congr hpos _ _) _) ?_
    intro q hq
    have hno : ¬ HasLiberty n (place (comb n f c t) (combAt n f 1 0) c) q := by
      rintro ⟨_, r, _, _, h3, h4⟩
      exact full r h3 h4
    unfold Spec.removeDead
    obtain ⟨r, j, hr, hj, rfl⟩ := combAt_ex (f := f) hq
    have hne := Color.ne_opp c
    have hj0 : combAt n f r j = combAt n f 1 0 ↔ r = 1 ∧ j = 0 := by
      constructor
      · intro h
        have h2 := congrArg (fun p => combCol n f p.2) h
        unfold combAt at h2
        dsimp only at h2
        rw [combCol_twice hj, combCol_twice (by omega)] at h2
        exact ⟨congrArg Prod.fst h, h2⟩
      · rintro ⟨rfl, rfl⟩; rfl
    rw [combLeft_at hj]
    by_cases h2 : r = 1
    · by_cases h3 : j = 0
      · rw [(hj0.2 ⟨h2, h3⟩), place_self, if_pos h2, if_pos h3, if_neg]
        rintro ⟨h, _⟩
        exact hne (Option.some.inj h)
      · have hpl : place (comb n f c t) (combAt n f 1 0) c (combAt n f r j) = some c.opp := by
          rw [place_ne (fun h => h3 (hj0.1 h).2), comb_at hj, if_pos h2, if_neg h3]
        rw [if_pos ⟨hpl, hno⟩, if_pos h2, if_neg h3]
    · have hpl : place (comb n f c t) (combAt n f 1 0) c (combAt n f r j) = if j ≤ t r then some c else some c.opp := by
        rw [place_ne (fun h => h2 (hj0.1 h).1), comb_at hj, if_neg h2]
      rw [if_neg h2]
      by_cases h3 : j ≤ t r
      · rw [if_pos h3] at hpl ⊢
        rw [if_neg, hpl]
        rintro ⟨h, _⟩
        rw [hpl] at h
        exact hne (Option.some.inj h)
      · rw [if_neg h3] at hpl ⊢
        rw [if_pos ⟨hpl, hno⟩]
  refine ⟨h1, ?_⟩
  unfold Spec.play
  dsimp only
  split
  · exact SameOn.trans (removeDead_congr h1 _) (removeDead_noDead (combLeft_noDead hc) _)
  · exact h1

/-- The two parts of the comb are not joined before. -/
theorem comb_joins (hc : CombOn n t) {pos : Pos} (hpos : SameOn n pos (comb n f c t)) : ¬ Joins n pos (combAt n f 1 0) c := by
  have hh := hc.h
  have hw := hc.w
  intro hj
  have hj' := joins_congr_mp hpos hj
  have h0 : comb n f c t (combAt n f 0 0) = some c := by rw [comb_at (by omega), if_neg (by omega), if_pos (by omega)]
  have h2 : comb n f c t (combAt n f 2 0) = some c := by rw [comb_at (by omega), if_neg (by omega), if_pos (by omega)]
  have hl := hj'.2 _ _ (combAt_on (by omega) (by omega)) (combAt_on (by omega) (by omega)) combAt_up combAt_down h0 h2
  have inv : ∀ q, Linked n (comb n f c t) (combAt n f 0 0) q → q.1 = 0 := by
    intro q hq
    induction hq with
    | refl => rfl
    | @step a b h3 h4 h5 h6 ih =>
      have h7 : comb n f c t b = some c := by rw [h6, linked_same h3, h0]
      have : b.1 ≠ 1 := by
        intro hb
        unfold comb at h7
        rw [if_pos hb] at h7
        split at h7
        · cases h7
        · exact Color.ne_opp c (Option.some.inj h7).symm
      rcases h4 with ⟨h4, _⟩ | ⟨_, h4⟩ <;> omega
  have := inv _ hl
  cases this

/-- The point where a comb begins. -/
abbrev combTip (n : Dim) (f : Bool) : Coord := combAt n f 0 0

/-- From a part of the position with a comb to the position after the capture. The part holds both tips and is the beginning of the
other comb. -/
theorem Calm.capture (hc : CombOn n t) (h : Calm dbg n o g s) (hsub : ∀ q, OnBoard n q → s.pos q ≠ none → comb n f c t q = s.pos q)
    (hrow : ∀ r j, r < n.h → j + 1 < n.w → s.pos (combAt n f r (j + 1)) = none → s.pos (combAt n f r j) = none ∨ (r = 0 ∧ j = 0))
    (hrow1 : ∀ j, j + 1 < n.w → s.pos (combAt n f 1 j) = none) (hcol : ∀ r, r < n.h → r ≠ 0 → s.pos (combAt n f r 0) = none)
    (htip : s.pos (combTip n f) ≠ none) (htip' : s.pos (combTip n !f) ≠ none)
    (hrep : ∀ q ∈ s.played, ¬ SameOn n q (combLeft n f c t)) :
    Crash dbg n g ∨ ∃ g' s', Steps dbg n g g' ∧ Calm dbg n o g' s' ∧ SameOn n s'.pos (combLeft n f c t) ∧
      g.goban.chains.length + 1 ≤ g'.goban.chains.length ∧
      ∀ b ∈ s'.played, b ∈ s.played ∨ (b (combTip n f) ≠ none ∧ b (combTip n !f) ≠ none) := by
  have hh := hc.h
  have hw := hc.w
  have ht0 := hc.t 0
  have htO : OnBoard n (combTip n f) := combAt_on (by omega) (by omega)
  have htO' : OnBoard n (combTip n !f) := combAt_on (by omega) (by omega)
  have hleft : combLeft n f c t (combTip n !f) = none := by
    rw [combTip, combAt_not (by omega), combLeft_at (by omega), if_neg (by omega), if_neg (by omega)]
  rcases Calm.fill (fun p => 2 * combCol n f p.2 + if p.1 = 0 then 2 else p.1) _ (comb n f c t) rfl (comb_noDead hc) h hsub (by
      intro q hq hne hmiss
      obtain ⟨r, j, hr, hj, rfl⟩ := combAt_ex (f := f) hq
      have hcc : ∀ {r j}, j < n.w → combCol n f (combAt n f r j).2 = j := fun h => combCol_twice h
      cases j with
      | zero =>
        have hr0 : r ≠ 0 := by rintro rfl; exact htip hmiss
        have hr1 : r ≠ 1 := by rintro rfl; rw [comb_at hj] at hne; exact hne rfl
        obtain ⟨x, rfl⟩ : ∃ x, r = x + 1 := ⟨r - 1, by omega⟩
        refine ⟨_, combAt_up, combAt_on (by omega) hj, Or.inr ⟨hcol x (by omega) (by omega), ?_⟩⟩
        rw [hcc hj, hcc hj]
        show 2 * 0 + (if x = 0 then 2 else x) < 2 * 0 + (if x + 1 = 0 then 2 else x + 1)
        rw [if_neg (by omega), if_neg (by omega)]
        omega
      | succ j =>
        rcases hrow r j hr hj hmiss with h1 | ⟨rfl, rfl⟩
        · refine ⟨_, combAt_side' hj, combAt_on hr (by omega), Or.inr ⟨h1, ?_⟩⟩
          rw [hcc hj, hcc (by omega)]
          show 2 * j + (if r = 0 then 2 else r) < 2 * (j + 1) + (if r = 0 then 2 else r)
          omega
        · refine ⟨_, combAt_down, combAt_on (by omega) hj, Or.inr ⟨hrow1 _ (by omega), ?_⟩⟩
          rw [hcc hj, hcc hj]
          show 2 * (0 + 1) + 1 < 2 * (0 + 1) + 2
          omega) with hcr | ⟨g1, s1, a1, a2, a3, a4, a5⟩
  · exact Or.inl hcr
  have hgO : OnBoard n (combAt n f 1 0) := combAt_on (by omega) (by omega)
  have h11 : comb n f c t (combAt n f 1 1) = some c.opp := by rw [comb_at (by omega), if_pos rfl, if_neg (by omega)]
  rcases a2.move (c := c) (R := combLeft n f c t) hgO (by rw [a3 _ hgO, comb_at (by omega)]; rfl) (fun sa => (comb_take hc sa a3).2)
    (by
      intro hs
      refine hs ⟨_, combAt n f 1 1, Linked.refl _, combAt_side (by omega), combAt_on (by omega) (by omega), ?_⟩
      rw [(comb_take hc false a3).1 _ (combAt_on (by omega) (by omega)), combLeft_at (by omega), if_pos rfl, if_neg (by omega)])
    ⟨combAt n f 1 1, combAt_side (by omega), combAt_on (by omega) (by omega), by
      rw [a3 _ (combAt_on (by omega) (by omega)), h11]
      intro h; exact Color.ne_opp c (Option.some.inj h).symm⟩
    (by
      intro _ q hq hs
      rcases a5 q hq with h1 | h1
      · exact hrep q h1 hs
      · have := hs _ htO'
        rw [h1 _ htO' htip', hleft] at this
        exact htip' this)
    (by
      intro a ha hall
      have key : ∀ r, r < 2 → combAt n f r (n.w - 1) = a := by
        intro r hr
        have htr := hc.t r
        refine (hall _ (combAt_on (by omega) (by omega))).1 ⟨?_, ?_⟩
        · rw [a3 _ (combAt_on (by omega) (by omega)), comb_at (by omega)]
          split
          · rw [if_neg (by omega)]
          · rw [if_neg (by omega)]
        · rw [combLeft_at (by omega)]
          split
          · rw [if_neg (by omega)]
          · rw [if_neg (by omega)]
      have := (key 0 (by omega)).trans (key 1 (by omega)).symm
      cases this) with hcr | ⟨g2, s2, b1, b2, b3, b4, b5, b6⟩
  · exact Or.inl (hcr.after a1)
  refine Or.inr ⟨g2, s2, a1.trans b1, b2, b3, ?_, ?_⟩
  · have := b5 (comb_joins hc a3)
    omega
  · intro b hb
    rw [b6] at hb
    rcases List.mem_append.1 hb with hb | hb
    · rcases a5 b hb with h1 | h1
      · exact Or.inl h1
      · exact Or.inr ⟨by rw [h1 _ htO htip]; exact htip, by rw [h1 _ htO' htip']; exact htip'⟩
    · rw [List.mem_singleton.1 hb]
      refine Or.inr ⟨?_, ?_⟩
      · rw [a3 _ htO, combTip, comb_at (by omega), if_neg (by omega), if_pos (by omega)]; simp
      · rw [a3 _ htO', combTip, combAt_not (by omega), comb_at (by omega), if_neg (by omega), if_neg (by omega)]; simp

theorem noDead_part {P Q : Pos} (hd : NoDead n P) (hs : ∀ q, OnBoard n q → Q q ≠ none → P q = Q q) : NoDead n Q := by
  have h1 : SameOn n Q (fun q => if P q = Q q then Q q else none) := by
    intro q hq
    dsimp only
    by_cases h : Q q = none
    · rw [h]; split <;> rfl
    · rw [if_pos (hs q hq h)]
  refine (noDead_congr h1).2 (noDead_sub hd (fun q => ?_))
  split
  · rename_i h; exact Or.inr h.symm
  · exact Or.inl rfl

theorem combLeft_other (hj : j < n.w) : combLeft n (!f) c t (combAt n f r j) =
    if r = 1 then (if j = n.w - 1 then some c else none) else if n.w - 1 ≤ j + t r then some c else none := by
  have h1 : combAt n f r j = combAt n (!f) r (n.w - 1 - j) := by
    rw [combAt_not (by omega), show n.w - 1 - (n.w - 1 - j) = j by omega]
  rw [h1, combLeft_at (by omega)]
  have h2 : (n.w - 1 - j = 0) ↔ j = n.w - 1 := by omega
  have h3 : (n.w - 1 - j ≤ t r) ↔ n.w - 1 ≤ j + t r := by omega
  simp only [h2, h3]

/-- From one comb left alone to the other. -/
theorem Calm.half (hc : CombOn n t) (hc' : CombOn n t') (h : Calm dbg n o g s) (hpos : SameOn n s.pos (combLeft n (!f) c.opp t'))
    (hrep : ∀ q ∈ s.played, ¬ SameOn n q (combLeft n f c t)) :
    Crash dbg n g ∨ ∃ g' s', Steps dbg n g g' ∧ Calm dbg n o g' s' ∧ SameOn n s'.pos (combLeft n f c t) ∧
      g.goban.chains.length + 2 ≤ g'.goban.chains.length ∧
      ∀ b ∈ s'.played, b ∈ s.played ∨ (b (combTip n f) ≠ none ∧ b (combTip n !f) ≠ none) ∨ SameOn n b (combLeft n (!f) c.opp t') := by
  have hh := hc.h
  have hw := hc.w
  have htO : OnBoard n (combTip n f) := combAt_on (by omega) (by omega)
  have htO' : OnBoard n (combTip n !f) := combAt_on (by omega) (by omega)
  have hne := Color.ne_opp c
  have hpe : s.pos (combTip n f) = none := by
    have := hc'.t 0
    rw [hpos _ htO, combTip, combLeft_other (by omega), if_neg (by omega), if_neg (by omega)]
  have hnoc : ∀ q, OnBoard n q → s.pos q ≠ some c := by
    intro q hq h1
    rw [hpos q hq] at h1
    unfold combLeft at h1
    split at h1 <;> split at h1 <;> first | (cases h1) | exact hne (Option.some.inj h1).symm
  have hval : ∀ r j, r < n.h → j < n.w → place s.pos (combTip n f) c (combAt n f r j) =
      if r = 0 ∧ j = 0 then some c else if r = 1 then (if j = n.w - 1 then some c.opp else none)
        else if n.w - 1 ≤ j + t' r then some c.opp else none := by
    intro r j hr hj
    by_cases h1 : r = 0 ∧ j = 0
    · rw [if_pos h1, h1.1, h1.2]
      exact place_self _ _ _
    · rw [if_neg h1, place_ne, hpos _ (combAt_on hr hj), combLeft_other hj]
      intro h2
      have h3 := congrArg (fun p => combCol n f p.2) h2
      unfold combTip combAt at h3
      dsimp only at h3
      rw [combCol_twice hj, combCol_twice (by omega)] at h3
      exact h1 ⟨congrArg Prod.fst h2, h3⟩
  have hsub : ∀ q, OnBoard n q → place s.pos (combTip n f) c q ≠ none → comb n f c t q = place s.pos (combTip n f) c q := by
    intro q hq h1
    obtain ⟨r, j, hr, hj, rfl⟩ := combAt_ex (f := f) hq
    have ht1 := hc.t r
    have ht2 := hc'.t r
    rw [hval r j hr hj] at h1 ⊢
    rw [comb_at hj]
    by_cases h2 : r = 0 ∧ j = 0
    · rw [if_pos h2, if_neg (by omega), if_pos (by omega)]
    · rw [if_neg h2] at h1 ⊢
      by_cases h3 : r = 1
      · rw [if_pos h3] at h1 ⊢
        rw [if_pos h3]
        by_cases h4 : j = n.w - 1
        · rw [if_pos h4, if_neg (by omega)]
        · rw [if_neg h4] at h1; exact absurd rfl h1
      · rw [if_neg h3] at h1 ⊢
        rw [if_neg h3]
        by_cases h4 : n.w - 1 ≤ j + t' r
        · rw [if_pos h4, if_neg (by omega)]
        · rw [if_neg h4] at h1; exact absurd rfl h1
  rcases h.put (p := combTip n f) (c := c) htO hpe (noDead_part (comb_noDead hc) hsub)
    ⟨combAt n f 1 0, combAt_down, combAt_on (by omega) (by omega), hnoc _ (combAt_on (by omega) (by omega))⟩ with
    hcr | ⟨g1, s1, a1, a2, a3, a4, a5, a6⟩
  · exact Or.inl hcr
  have hval1 : ∀ r j, r < n.h → j < n.w → s1.pos (combAt n f r j) = _ := fun r j hr hj =>
    (a3 _ (combAt_on hr hj)).trans (hval r j hr hj)
  rcases a2.capture (f := f) (c := c) hc (by
      intro q hq h1
      rw [a3 q hq] at h1 ⊢
      exact hsub q hq h1) (by
      intro r j hr hj h1
      rw [hval1 r _ hr hj] at h1
      rw [hval1 r j hr (by omega)]
      by_cases h2 : r = 0 ∧ j = 0
      · exact Or.inr h2
      · left
        rw [if_neg (by omega)] at h1
        rw [if_neg h2]
        by_cases h3 : r = 1
        · rw [if_pos h3, if_neg (by omega)]
        · rw [if_neg h3] at h1 ⊢
          by_cases h4 : n.w - 1 ≤ j + 1 + t' r
          · rw [if_pos h4] at h1; cases h1
          · rw [if_neg (by omega)]) (by
      intro j hj
      rw [hval1 1 j (by omega) (by omega), if_neg (by omega), if_pos rfl, if_neg (by omega)]) (by
      intro r hr h0
      have ht2 := hc'.t r
      rw [hval1 r 0 hr (by omega), if_neg (by omega)]
      split
      · rw [if_neg (by omega)]
      · rw [if_neg (by omega)]) (by
      rw [a3 _ htO, place_self]; simp) (by
      rw [combTip, combAt_not (by omega), hval1 0 _ (by omega) (by omega), if_neg (by omega), if_neg (by omega), if_pos (by omega)]
      simp) (by
      intro q hq hs
      rw [a6] at hq
      rcases List.mem_append.1 hq with hq | hq
      · exact hrep q hq hs
      · rw [List.mem_singleton.1 hq] at hs
        have := hs _ htO
        rw [hpe, combTip, combLeft_at (by omega), if_neg (by omega), if_pos (by omega)] at this
        cases this) with hcr | ⟨g2, s2, b1, b2, b3, b4, b5⟩
  · exact Or.inl (hcr.after a1)
  refine Or.inr ⟨g2, s2, a1.trans b1, b2, b3, ?_, ?_⟩
  · have := a5 (by
      rintro ⟨⟨q, hq, _, h1⟩, _⟩
      exact hnoc q hq h1)
    omega
  · intro b hb
    rcases b5 b hb with h1 | h1
    · rw [a6] at h1
      rcases List.mem_append.1 h1 with h1 | h1
      · exact Or.inl h1
      · rw [List.mem_singleton.1 h1]
        exact Or.inr (Or.inr hpos)
    · exact Or.inr (Or.inl h1)

/-! ### Counting with the teeth -/

/-- The teeth that show the number `i` in base `K`. Row 1 has no tooth. -/
def teeth (K i r : Nat) : Nat := i / K ^ (if r = 0 then 0 else r - 1) % K

theorem digits_inj {K : Nat} : ∀ k i j, i < K ^ k → j < K ^ k → (∀ d < k, i / K ^ d % K = j / K ^ d % K) → i = j
  | 0, i, j, hi, hj, _ => by
    rw [Nat.pow_zero] at hi hj
    omega
  | k + 1, i, j, hi, hj, h => by
    have hK : 0 < K := by
      rcases Nat.eq_zero_or_pos K with rfl | h
      · rw [Nat.pow_succ, Nat.mul_zero] at hi; omega
      · exact h
    have h0 := h 0 (by omega)
    rw [Nat.pow_zero, Nat.div_one, Nat.div_one] at h0
    have h1 : i / K = j / K := by
      refine digits_inj (K := K) k _ _ ?_ ?_ (fun d hd => ?_)
      · exact (Nat.div_lt_iff_lt_mul hK).2 (by rwa [← Nat.pow_succ])
      · exact (Nat.div_lt_iff_lt_mul hK).2 (by rwa [← Nat.pow_succ])
      · rw [Nat.div_div_eq_div_mul, Nat.div_div_eq_div_mul, ← Nat.pow_succ']
        exact h (d + 1) (by omega)
    rw [← Nat.div_add_mod i K, ← Nat.div_add_mod j K, h0, h1]

theorem teeth_on {K : Nat} (hh : 3 ≤ n.h) (hK : 2 ≤ K) (hw : 2 * K ≤ n.w) (i : Nat) : CombOn n (teeth K i) := by
  refine ⟨hh, by omega, fun r => ?_⟩
  have : teeth K i r < K := Nat.mod_lt _ (by omega)
  omega

theorem combLeft_teeth {K i k : Nat} (hh : 3 ≤ n.h) (hK : 2 ≤ K) (hw : 2 * K ≤ n.w) (hi : i < K ^ (n.h - 1)) (hk : k < K ^ (n.h - 1)) (hne : k ≠ i) :
    ¬ SameOn n (combLeft n f c (teeth K k)) (combLeft n f c (teeth K i)) := by
  intro h
  refine hne (digits_inj (n.h - 1) _ _ hk hi (fun d hd => ?_))
  have key : ∀ r, r < n.h → r ≠ 1 → teeth K k r = teeth K i r := by
    intro r hr h1
    have t1 := (teeth_on hh hK hw i).t r
    have t2 := (teeth_on hh hK hw k).t r
    have h2 := h _ (combAt_on (f := f) hr (j := teeth K k r) (by omega))
    have h3 := h _ (combAt_on (f := f) hr (j := teeth K i r) (by omega))
    rw [combLeft_at (by omega), combLeft_at (by omega), if_neg h1, if_neg h1] at h2 h3
    by_contra hne'
    rcases Nat.lt_or_ge (teeth K k r) (teeth K i r) with h4 | h4
    · rw [if_neg (by omega), if_pos (by omega)] at h3; cases h3
    · rw [if_pos (by omega), if_neg (by omega)] at h2; cases h2
  by_cases hd0 : d = 0
  · subst hd0
    exact key 0 (by omega) (by omega)
  · have := key (d + 1) (by omega) (by omega)
    unfold teeth at this
    rwa [if_neg (by omega), Nat.add_sub_cancel] at this

/-- The positions played from before Black's comb shows `i` and White's shows `j`: both tips are there, or none of the gaps is closed, or
an earlier comb is alone. -/
def CombSeen (n : Dim) (K i j : Nat) (q : Pos) : Prop :=
  (q (combTip n false) ≠ none ∧ q (combTip n true) ≠ none) ∨
  (q (combAt n false 1 0) = none ∧ q (combAt n true 1 0) = none) ∨
  (∃ k < i, SameOn n q (combLeft n false .black (teeth K k))) ∨ ∃ k < j, SameOn n q (combLeft n true .white (teeth K k))

/-- Room to count up to `K ^ (n.h - 1)`. -/
structure Teeth (n : Dim) (K : Nat) : Prop where
  h : 3 ≤ n.h
  k : 2 ≤ K
  w : 2 * K ≤ n.w

variable {K i : Nat}

theorem Teeth.comb (hT : Teeth n K) (i : Nat) : CombOn n (teeth K i) := teeth_on hT.h hT.k hT.w i

theorem combLeft_tip (hT : Teeth n K) : combLeft n f c (teeth K i) (combTip n f) = some c ∧
    combLeft n f c (teeth K i) (combTip n !f) = none ∧ combLeft n f c (teeth K i) (combAt n f 1 0) = some c := by
  have hc := hT.comb i
  have h0 := hc.t 0
  have hw := hc.w
  refine ⟨?_, ?_, ?_⟩
  · rw [combTip, combLeft_at (by omega), if_neg (by omega), if_pos (by omega)]
  · rw [combTip, combAt_not (by omega), combLeft_at (by omega), if_neg (by omega), if_neg (by omega)]
  · rw [combLeft_at (by omega), if_pos rfl, if_pos rfl]

theorem tip_on (hT : Teeth n K) : OnBoard n (combTip n f) ∧ OnBoard n (combAt n f 1 0) := by
  have := hT.h
  have := hT.w
  have := hT.k
  exact ⟨combAt_on (by omega) (by omega), combAt_on (by omega) (by omega)⟩

theorem CombSeen.black {q : Pos} (hT : Teeth n K) (hi : i < K ^ (n.h - 1)) (h : CombSeen n K i j q) :
    ¬ SameOn n q (combLeft n false .black (teeth K i)) := by
  intro hs
  rcases h with ⟨_, h⟩ | ⟨h, _⟩ | ⟨k, hk, h⟩ | ⟨k, _, h⟩
  · rw [hs _ (tip_on hT).1] at h
    exact h (combLeft_tip (f := false) hT).2.1
  · rw [hs _ (tip_on hT).2, (combLeft_tip (f := false) hT).2.2] at h
    cases h
  · exact combLeft_teeth hT.h hT.k hT.w hi (by omega) (by omega) (SameOn.trans (SameOn.symm h) hs)
  · have h1 := hs _ (tip_on (f := true) hT).1
    rw [h _ (tip_on hT).1, (combLeft_tip (f := true) hT).1, show combTip n true = combTip n !false from rfl,
      (combLeft_tip (f := false) hT).2.1] at h1
    cases h1

theorem CombSeen.white {q : Pos} (hT : Teeth n K) (hj : j < K ^ (n.h - 1)) (h : CombSeen n K i j q) :
    ¬ SameOn n q (combLeft n true .white (teeth K j)) := by
  intro hs
  rcases h with ⟨h, _⟩ | ⟨_, h⟩ | ⟨k, hk, h⟩ | ⟨k, _, h⟩
  · rw [hs _ (tip_on hT).1] at h
    exact h (combLeft_tip (f := true) hT).2.1
  · rw [hs _ (tip_on hT).2, (combLeft_tip (f := true) hT).2.2] at h
    cases h
  · have h1 := hs _ (tip_on (f := false) hT).1
    rw [h _ (tip_on hT).1, (combLeft_tip (f := false) hT).1, show combTip n false = combTip n !true from rfl,
      (combLeft_tip (f := true) hT).2.1] at h1
    cases h1
  · exact combLeft_teeth hT.h hT.k hT.w hj (by omega) (by omega) (SameOn.trans (SameOn.symm h) hs)

/-- Black's comb with number `i` is left alone on the board for the first time. -/
structure Round (dbg : Bool) (n : Dim) (o : Option EndGame) (K i : Nat) (g : Game) (s : State) : Prop where
  calm : Calm dbg n o g s
  pos : SameOn n s.pos (combLeft n false .black (teeth K i))
  len : 4 * i + 3 ≤ g.goban.chains.length
  played : ∀ q ∈ s.played, CombSeen n K i i q

/-- White takes the board. -/
theorem Round.white (hT : Teeth n K) (hi : i < K ^ (n.h - 1)) (h : Round dbg n o K i g s) :
    Crash dbg n g ∨ ∃ g' s', Steps dbg n g g' ∧ Calm dbg n o g' s' ∧ SameOn n s'.pos (combLeft n true .white (teeth K i)) ∧
      4 * i + 5 ≤ g'.goban.chains.length ∧ ∀ q ∈ s'.played, CombSeen n K (i + 1) i q := by
  rcases Calm.half (f := true) (c := .white) (hT.comb i) (hT.comb i) h.calm h.pos (fun q hq => (h.played q hq).white hT hi) with
    hcr | ⟨g', s', a1, a2, a3, a4, a5⟩
  · exact Or.inl hcr
  refine Or.inr ⟨g', s', a1, a2, a3, by have := h.len; omega, fun q hq => ?_⟩
  rcases a5 q hq with h1 | h1 | h1
  · rcases h.played q h1 with h2 | h2 | ⟨k, hk, h2⟩ | h2
    · exact Or.inl h2
    · exact Or.inr (Or.inl h2)
    · exact Or.inr (Or.inr (Or.inl ⟨k, by omega, h2⟩))
    · exact Or.inr (Or.inr (Or.inr h2))
  · exact Or.inl ⟨h1.2, h1.1⟩
  · exact Or.inr (Or.inr (Or.inl ⟨i, by omega, h1⟩))

/-- Black takes it back. -/
theorem Round.next (hT : Teeth n K) (hi : i + 1 < K ^ (n.h - 1)) (h : Round dbg n o K i g s) :
    Crash dbg n g ∨ ∃ g' s', Steps dbg n g g' ∧ Round dbg n o K (i + 1) g' s' := by
  rcases h.white hT (by omega) with hcr | ⟨g1, s1, a1, a2, a3, a4, a5⟩
  · exact Or.inl hcr
  rcases Calm.half (f := false) (c := .black) (hT.comb (i + 1)) (hT.comb i) a2 a3 (fun q hq => (a5 q hq).black hT hi) with
    hcr | ⟨g', s', b1, b2, b3, b4, b5⟩
  · exact Or.inl (hcr.after a1)
  refine Or.inr ⟨g', s', a1.trans b1, b2, b3, by omega, fun q hq => ?_⟩
  rcases b5 q hq with h1 | h1 | h1
  · rcases a5 q h1 with h2 | h2 | h2 | ⟨k, hk, h2⟩
    · exact Or.inl h2
    · exact Or.inr (Or.inl h2)
    · exact Or.inr (Or.inr (Or.inl h2))
    · exact Or.inr (Or.inr (Or.inr ⟨k, by omega, h2⟩))
  · exact Or.inl h1
  · exact Or.inr (Or.inr (Or.inr ⟨i, by omega, h1⟩))

theorem Round.all (hT : Teeth n K) : ∀ (d : Nat) {i g s}, i + d < K ^ (n.h - 1) → Round dbg n o K i g s →
    Crash dbg n g ∨ ∃ g' s', Steps dbg n g g' ∧ Round dbg n o K (i + d) g' s'
  | 0, i, g, s, _, h => Or.inr ⟨g, s, .refl g, h⟩
  | d + 1, i, g, s, hd, h => by
    rcases h.next hT (by omega) with hcr | ⟨g1, s1, a1, a2⟩
    · exact Or.inl hcr
    rcases Round.all hT d (i := i + 1) (by omega) a2 with hcr | ⟨g2, s2, b1, b2⟩
    · exact Or.inl (hcr.after a1)
    · exact Or.inr ⟨g2, s2, a1.trans b1, by rwa [show i + (d + 1) = i + 1 + d by omega]⟩

/-- The first comb, from the empty board. -/
theorem Round.start (hT : Teeth n K) (h : Calm dbg n o g s) (hpos : ∀ p, OnBoard n p → s.pos p = none) (hpl : s.played = []) :
    Crash dbg n g ∨ ∃ g' s', Steps dbg n g g' ∧ Round dbg n o K 0 g' s' := by
  have hh := hT.h
  have hk := hT.k
  have hw := hT.w
  have hc := hT.comb 0
  have ht0 := hc.t 0
  have hO := tip_on (f := false) hT
  have hO' := tip_on (f := true) hT
  have hO1 := (tip_on (f := true) hT).1
  have htr : combTip n true = combAt n false 0 (n.w - 1) := by
    rw [show combTip n true = combAt n (!false) 0 0 from rfl, combAt_not (by omega), Nat.sub_zero]
  have inj : ∀ {r j r' j'}, j < n.w → j' < n.w → combAt n false r j = combAt n false r' j' → r = r' ∧ j = j' := by
    intro r j r' j' h1 h2 h3
    have h4 := congrArg (fun p => combCol n false p.2) h3
    unfold combAt at h4
    dsimp only at h4
    rw [combCol_twice h1, combCol_twice h2] at h4
    exact ⟨congrArg Prod.fst h3, h4⟩
  have hne : combTip n true ≠ combTip n false := by
    rw [htr]
    intro h1
    have := (inj (by omega) (by omega) h1).2
    omega
  -- the two tips
  have hval : ∀ p, OnBoard n p → place (place s.pos (combTip n false) .black) (combTip n true) .white p =
      if p = combTip n true then some .white else if p = combTip n false then some .black else none := by
    intro p hp
    unfold place
    split
    · rfl
    · split
      · rfl
      · exact hpos p hp
  have hsub : ∀ q, OnBoard n q → place (place s.pos (combTip n false) .black) (combTip n true) .white q ≠ none →
      comb n false .black (teeth K 0) q = place (place s.pos (combTip n false) .black) (combTip n true) .white q := by
    intro q hq h1
    rw [hval q hq] at h1 ⊢
    split
    · rename_i h2
      rw [h2, htr, comb_at (by omega), if_neg (by omega), if_neg (by omega)]; rfl
    · rename_i h2
      rw [if_neg h2] at h1
      split
      · rename_i h3
        rw [h3, combTip, comb_at (by omega), if_neg (by omega), if_pos (by omega)]
      · rename_i h3
        rw [if_neg h3] at h1; exact absurd rfl h1
  have hd2 := noDead_part (comb_noDead hc) hsub
  have hd1 : NoDead n (place s.pos (combTip n false) .black) := noDead_part hd2 (by
    intro q hq h1
    rw [place_ne]
    rintro rfl
    rw [place_ne hne, hpos _ hq] at h1
    exact h1 rfl)
  rcases h.put (c := .black) hO.1 (hpos _ hO.1) hd1 ⟨_, combAt_down, hO.2, by rw [hpos _ hO.2]; simp⟩ with
    hcr | ⟨g1, s1, a1, a2, a3, a4, a5, a6⟩
  · exact Or.inl hcr
  have hgap : combAt n true 1 0 ≠ combTip n false := by
    intro h1
    have := congrArg Prod.fst h1
    cases this
  have a3' := place_congr a3 (combTip n true) .white
  rcases a2.put (c := .white) hO'.1 (by rw [a3 _ hO'.1, place_ne hne, hpos _ hO'.1]) ((noDead_congr a3').2 hd2)
    ⟨_, combAt_down, hO'.2, by rw [a3 _ hO'.2, place_ne hgap, hpos _ hO'.2]; simp⟩ with hcr | ⟨g2, s2, b1, b2, b3, b4, b5, b6⟩
  · exact Or.inl (hcr.after a1)
  have hval2 : ∀ p, OnBoard n p → s2.pos p = if p = combTip n true then some .white else if p = combTip n false then some .black else none :=
    fun p hp => ((b3 p hp).trans (a3' p hp)).trans (hval p hp)
  have hnone : ∀ r j, r < n.h → j < n.w → (r ≠ 0 ∨ (j ≠ 0 ∧ j ≠ n.w - 1)) → s2.pos (combAt n false r j) = none := by
    intro r j hr hj h1
    rw [hval2 _ (combAt_on hr hj), if_neg, if_neg]
    · intro h2
      have := inj hj (by omega) h2
      omega
    · intro h2
      rw [htr] at h2
      have := inj hj (by omega) h2
      omega
  have hpl2 : s2.played = [s.pos, s1.pos] := by rw [b6, a6, hpl]; rfl
  have hseen : ∀ q ∈ s2.played, CombSeen n K 0 0 q := by
    intro q hq
    rw [hpl2] at hq
    simp only [List.mem_cons, List.not_mem_nil, or_false] at hq
    rcases hq with rfl | rfl
    · exact Or.inr (Or.inl ⟨hpos _ hO.2, hpos _ hO'.2⟩)
    · refine Or.inr (Or.inl ⟨?_, ?_⟩)
      · rw [a3 _ hO.2, place_ne, hpos _ hO.2]
        intro h1
        have := congrArg Prod.fst h1
        cases this
      · rw [a3 _ hO'.2, place_ne hgap, hpos _ hO'.2]
  rcases b2.capture (f := false) (c := .black) hc (by
      intro q hq h1
      have h2 : s2.pos q = _ := (b3 q hq).trans (a3' q hq)
      rw [h2] at h1 ⊢
      exact hsub q hq h1) (by
      intro r j hr hj h1
      by_cases h2 : r = 0 ∧ j = 0
      · exact Or.inr h2
      · exact Or.inl (hnone r j hr (by omega) (by omega))) (fun j hj => hnone 1 j (by omega) (by omega) (by omega))
      (fun r hr h0 => hnone r 0 hr (by omega) (Or.inl h0)) (by
      rw [hval2 _ hO.1, if_neg hne.symm, if_pos rfl]; simp) (by
      rw [show (!false) = true from rfl, hval2 _ hO'.1, if_pos rfl]; simp) (fun q hq => (hseen q hq).black hT (by
      exact Nat.pow_pos (by omega))) with hcr | ⟨g3, s3, c1, c2, c3, c4, c5⟩
  · exact Or.inl (hcr.after (a1.trans b1))
  refine Or.inr ⟨g3, s3, (a1.trans b1).trans c1, c2, c3, ?_, ?_⟩
  · have h1 := a5 (by
      rintro ⟨⟨q, hq, _, h1⟩, _⟩
      rw [hpos q hq] at h1; cases h1)
    have h2 := b5 (by
      rintro ⟨⟨q, hq, _, h1⟩, _⟩
      rw [a3 q hq] at h1
      unfold place at h1
      split at h1
      · cases h1
      · rw [hpos q hq] at h1; cases h1)
    omega
  · intro q hq
    rcases c5 q hq with h1 | h1
    · exact hseen q h1
    · exact Or.inl h1

/-! ### C72 -/

/-- **C72**. On every board with `4 * ((n.w / 2) ^ (n.h - 1))` at least 65536 (8 × 8 and larger squares, for example) and under every
rule, the super-ko rules included, there is a game of `try_play` calls from the new game, all accepted, after which the game is not
over and an on-board `try_play` panics. -/
theorem C72_smaller (dbg : Bool) (hfit : n.Fits) (hh : n.h ≤ 19) (hw : n.w ≤ 19) (hroom : 16384 ≤ (n.w / 2) ^ (n.h - 1)) (rule : Rule) :
    ∃ (g0 : Game) (ms : List Move) (es : List (Option PlayError)) (g : Game) (mv : Move),
      Game.new (.custom n.h n.w) rule = .ok g0 ∧ (∀ mv ∈ ms, Move.OnBoard n mv) ∧
      g0.run dbg (ms.map GOp.try_) = .ok (es, g) ∧ (∀ e ∈ es, e = none) ∧
      g.isOver = false ∧ Move.OnBoard n mv ∧ g.tryPlay dbg mv = panic := by
  have hsz : GobanSizes.toSize (.custom n.h n.w) = n.sz := by
    show (u8 n.h, u8 n.w) = _
    unfold u8 Dim.sz
    rw [Nat.mod_eq_of_lt (by omega), Nat.mod_eq_of_lt (by omega)]
  obtain ⟨_, hx⟩ | ⟨_, g0, e0, hb⟩ := C53_new_partial (.custom n.h n.w) rule (by show n.h < 256; omega) (by show n.w < 256; omega)
  · exact absurd ⟨hh, hw⟩ hx
  have h0 : Fresh dbg n 0 g0 := .new hfit hsz e0
  have hempty : ∀ p, OnBoard n p → g0.goban.view p = none := fun p hp =>
    (getColor_none h0.spec.board.inv.1 hp).1 (hb.empty p hp)
  have hT : Teeth n (n.w / 2) := by
    have h1 : 2 ≤ n.w / 2 := by
      by_contra h
      have h2 : (n.w / 2) ^ (n.h - 1) ≤ 1 ^ (n.h - 1) := Nat.pow_le_pow_left (by omega) _
      rw [Nat.one_pow] at h2
      omega
    refine ⟨?_, h1, by omega⟩
    by_contra h
    have h2 : (n.w / 2) ^ (n.h - 1) ≤ (n.w / 2) ^ 1 := Nat.pow_le_pow_right (by omega) (by omega)
    rw [Nat.pow_one] at h2
    omega
  have hcalm : Calm dbg n g0.outcome g0 _ := ⟨⟨0, h0.sim (fun p hp h => absurd (hempty p hp) h)⟩, rfl, by
    rintro p _ ⟨⟨b, hb, _⟩, _⟩; cases hb⟩
  have hc : Crash dbg n g0 := by
    rcases Round.start hT hcalm hempty rfl with hcr | ⟨g1, s1, a1, a2⟩
    · exact hcr
    rcases Round.all hT 16383 (by omega) a2 with hcr | ⟨g2, s2, b1, b2⟩
    · exact hcr.after a1
    rcases b2.white hT (by omega) with hcr | ⟨g3, s3, c1, ⟨⟨m3, c2⟩, _, _⟩, _, c4, _⟩
    · exact hcr.after (a1.trans b1)
    have := c2.inv.rep.few
    omega
  obtain ⟨g', mv, ⟨ms', es', a1, a2, a3, a4⟩, b1, b2⟩ := hc
  exact ⟨g0, ms', es', g', mv, e0, a1, a2, a3,
    goes_on (.fresh h0 (fun p hp h => absurd (hempty p hp) h)) a1 a2 (a4.trans hb.goesOn.2) b2, b1, b2⟩

/-- The supported sizes with that much room: squares from 8 × 8 on, and seven rectangles. Those of `C72_crash` are among them. -/
theorem comb_sizes : ∀ h ∈ List.range 20, ∀ w ∈ List.range 20, w ≠ 0 → h % w = 0 →
    ((16384 ≤ (w / 2) ^ (h - 1) ↔ (h = w ∧ 8 ≤ h) ∨ (h, w) ∈ [(12, 6), (14, 7), (16, 8), (18, 9), (18, 6), (15, 5), (16, 4)]) ∧
      (17 ≤ (w - 1) / 3 * ((h + 1) / 2) → 16384 ≤ (w / 2) ^ (h - 1))) := by
  decide

/-- For example on the boards of 8 × 8 and 9 × 9 under the Chinese rule, which refuses ko, suicide and all repetitions. -/
theorem C72_nine (dbg : Bool) : ∀ n ∈ [8, 9], ∃ (g0 : Game) (ms : List Move) (es : List (Option PlayError)) (g : Game) (mv : Move),
      Game.new (.custom n n) CHINESE = .ok g0 ∧ (∀ mv ∈ ms, Move.OnBoard n mv) ∧
      g0.run dbg (ms.map GOp.try_) = .ok (es, g) ∧ (∀ e ∈ es, e = none) ∧
      g.isOver = false ∧ Move.OnBoard n mv ∧ g.tryPlay dbg mv = panic := by
  intro n hn
  simp only [List.mem_cons, List.not_mem_nil, or_false] at hn
  rcases hn with rfl | rfl
  · exact C72_smaller (n := (8 : Nat)) dbg (by decide) (by decide) (by decide) (by decide) CHINESE
  · exact C72_smaller (n := (9 : Nat)) dbg (by decide) (by decide) (by decide) (by decide) CHINESE

end Model
