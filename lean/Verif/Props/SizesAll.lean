import Verif.Props.Sizes
/-!
# On which boards the crate plays Go, under the remaining rules (C107)

Suicide allowed, ko forbidden: the crate's ko test (`Spec.KoSeen`) is not the one of the rules on suicidal plays. Here are the two
board sizes on which that makes no difference, and the calls that show it on all the others.
-/

namespace Spec
open Model (Color)

variable {n : Dim} {pos : Pos} {p q : Pt} {c : Color}

theorem removeDead_lives {d : Color} (h : pos q = some d) (hl : HasLiberty n pos q) : removeDead n pos c q = some d := by
  unfold removeDead
  rw [if_neg (fun h' => h'.2 hl), h]

theorem removeDead_other {d : Color} (h : pos q = some d) (hl : d ≠ c) : removeDead n pos c q = some d := by
  unfold removeDead
  rw [if_neg (fun h' => hl (Option.some.inj (h.symm.trans h'.1))), h]

/-- A stone with an empty point beside it stays when a stone is played elsewhere. -/
theorem play_keeps {sa : Bool} {d : Color} {r : Pt} (h : pos q = some d) (ha : Adj q r) (hb : OnBoard n r) (hr : pos r = none)
    (hrp : r ≠ p) (hqp : q ≠ p) : play n sa pos p c q = some d := by
  have q1 : place pos p c q = some d := by unfold place; rw [if_neg hqp, h]
  have r1 : place pos p c r = none := by unfold place; rw [if_neg hrp, hr]
  have q2 : removeDead n (place pos p c) c.opp q = some d := removeDead_lives q1 ⟨q, r, .refl _, ha, hb, r1⟩
  have r2 : removeDead n (place pos p c) c.opp r = none := removeDead_none r1
  unfold play
  split
  · exact removeDead_lives q2 ⟨q, r, .refl _, ha, hb, r2⟩
  · exact q2

theorem opp_ne (c : Color) : c.opp ≠ c := by cases c <;> decide

/-! ### The board with two points -/

/-- The board with two rows and one column. -/
def two : Dim := ⟨2, 1⟩

/-- The other point. -/
def other (p : Pt) : Pt := (1 - p.1, p.2)

theorem two_cases (h : OnBoard two p) : p = (0, 0) ∨ p = (1, 0) := by
  obtain ⟨x, y⟩ := p
  obtain ⟨h1, h2⟩ := h
  simp only [two] at h1 h2
  have : (x = 0 ∨ x = 1) ∧ y = 0 := by omega
  rcases this with ⟨rfl | rfl, rfl⟩ <;> simp

theorem two_other (h : OnBoard two p) : OnBoard two (other p) ∧ other p ≠ p ∧ Adj p (other p) ∧ other (other p) = p ∧
    ∀ q, OnBoard two q → q = p ∨ q = other p := by
  rcases two_cases h with rfl | rfl
  · refine ⟨by decide, by decide, by decide, by decide, fun q hq => ?_⟩
    rcases two_cases hq with rfl | rfl <;> simp [other]
  · refine ⟨by decide, by decide, by decide, by decide, fun q hq => ?_⟩
    rcases two_cases hq with rfl | rfl <;> simp [other]

theorem two_adj (h : OnBoard two p) (hq : OnBoard two q) (ha : Adj p q) : q = other p := by
  rcases two_cases h with rfl | rfl <;> rcases two_cases hq with rfl | rfl <;> first | rfl | exact absurd ha (by decide)

theorem two_liberty (h : OnBoard two p) (hc : pos p = some c) : HasLiberty two pos p ↔ pos (other p) = none := by
  obtain ⟨ho, hne, ha, hoo, hall⟩ := two_other h
  constructor
  · rintro ⟨q, r, hl, har, hr, hn⟩
    have hq : OnBoard two q := by
      cases hl with
      | refl => exact h
      | step _ _ hb _ => exact hb
    have := two_adj hq hr har
    rcases hall q hq with rfl | rfl
    · rw [← this]; exact hn
    · rw [hoo] at this
      rw [this, hc] at hn; cases hn
  · intro hn
    exact ⟨p, other p, .refl _, ha, ho, hn⟩

/-- A play on this board: the other point ends up empty, the stone stays unless the other point had its colour. -/
theorem two_play (h : OnBoard two p) : play two true pos p c (other p) = none ∧
    play two true pos p c p = if pos (other p) = some c then none else some c := by
  obtain ⟨ho, hne, ha, hoo, hall⟩ := two_other h
  have a1 : place pos p c p = some c := by unfold place; rw [if_pos rfl]
  have a2 : place pos p c (other p) = pos (other p) := by unfold place; rw [if_neg hne]
  have b1 : removeDead two (place pos p c) c.opp p = some c := removeDead_other a1 (opp_ne c).symm
  have b2 : removeDead two (place pos p c) c.opp (other p) = if pos (other p) = some c then some c else none := by
    cases ho' : pos (other p) with
    | none => exact removeDead_none (a2.trans ho')
    | some d =>
      by_cases hd : d = c
      · subst hd
        rw [if_pos rfl]
        exact removeDead_other (a2.trans ho') (opp_ne d).symm
      · rw [if_neg (fun h' => hd (Option.some.inj h'))]
        have hd' : d = c.opp := by cases d <;> cases c <;> simp_all [Color.opp]
        unfold removeDead
        rw [if_pos]
        refine ⟨by rw [a2, ho', hd'], ?_⟩
        rw [two_liberty ho (a2.trans ho'), hoo, a1]
        simp
  unfold play
  rw [if_pos rfl]
  generalize removeDead two (place pos p c) c.opp = P at b1 b2
  by_cases hc : pos (other p) = some c
  · rw [if_pos hc] at b2 ⊢
    constructor
    · unfold removeDead
      rw [if_pos ⟨b2, by rw [two_liberty ho b2, hoo, b1]; simp⟩]
    · unfold removeDead
      rw [if_pos ⟨b1, by rw [two_liberty h b1, b2]; simp⟩]
  · rw [if_neg hc] at b2 ⊢
    exact ⟨removeDead_none b2, removeDead_lives b1 ((two_liberty h b1).2 b2)⟩

/-- The position before the last stone leads to the present one. -/
def Follows (n : Dim) (s : State) : Prop :=
  ∀ b, s.before = some b → ∃ q, OnBoard n q ∧ b q = none ∧ SameOn n s.pos (play n true b q s.turn.opp)

/-- On two points the two ko tests agree. -/
theorem two_ko {s : State} (hs : Follows two s) (h : OnBoard two p) (hp : s.pos p = none) : KoSeen two s p ↔ Ko two true s p := by
  obtain ⟨ho, hne, ha, hoo, hall⟩ := two_other h
  cases hb : s.before with
  | none =>
    unfold KoSeen Ko
    rw [hb]
    simp
  | some b =>
    obtain ⟨q, hq, hbq, hsame⟩ := hs b hb
    obtain ⟨p1, p2⟩ := two_play (pos := s.pos) (c := s.turn) h
    obtain ⟨q1, q2⟩ := two_play (pos := b) (c := s.turn.opp) hq
    have hko : Ko two true s p ↔ (none : Option Color) = b (other p) ∧ (if s.pos (other p) = some s.turn then none else some s.turn) = b p := by
      unfold Ko
      rw [hb]
      constructor
      · rintro ⟨b', hb', hx⟩
        cases hb'
        exact ⟨by rw [← hx _ ho, p1], by rw [← hx _ h, p2]⟩
      · rintro ⟨h1, h2⟩
        refine ⟨b, rfl, fun x hx => ?_⟩
        rcases hall x hx with rfl | rfl
        · rw [p2, h2]
        · rw [p1, h1]
    have hseen : KoSeen two s p → b p = some s.turn := by
      rintro ⟨⟨b', hb', hx⟩, _⟩
      rw [hb] at hb'; cases hb'
      exact ((hx p h).2 rfl).1
    rcases hall q hq with rfl | rfl
    · -- the last stone was played here
      rw [hko]
      constructor
      · intro hx
        rw [hseen hx] at hbq; cases hbq
      · rintro ⟨_, hx⟩
        rw [hbq] at hx
        split at hx
        · rename_i h1
          rw [hsame _ ho, q1] at h1; cases h1
        · cases hx
    · rw [hoo] at q1 q2
      have h2 := hsame _ ho
      rw [q2] at h2
      constructor
      · intro hx
        have hbp := hseen hx
        rw [hbp, if_neg (fun h' => opp_ne _ (Option.some.inj h').symm)] at h2
        rw [hko, hbq, hbp, h2, if_neg (fun h' => opp_ne _ (Option.some.inj h'))]
        exact ⟨rfl, rfl⟩
      · rw [hko]
        rintro ⟨_, hx⟩
        have hbp : b p = some s.turn := by
          split at hx
          · rename_i h1
            rw [h1] at h2
            split at h2
            · cases h2
            · exact absurd (Option.some.inj h2).symm (opp_ne _)
          · exact hx.symm
        rw [hbp, if_neg (fun h' => opp_ne _ (Option.some.inj h').symm)] at h2
        refine ⟨⟨b, hb, fun r hr => ⟨fun h' => ?_, ?_⟩⟩, ?_⟩
        · rcases hall r hr with rfl | rfl
          · rfl
          · rw [h2] at h'; cases h'.2
        · rintro rfl
          exact ⟨hbp, hp⟩
        · intro r har hr hrn _ t ht
          have hro := two_adj h hr har
          subst hro
          have : ∀ t, Linked two s.pos (other p) t → t = other p := by
            intro t ht
            induction ht with
            | refl => rfl
            | step _ ha' hb' hc' ih =>
              subst ih
              have := two_adj ho hb' ha'
              rw [hoo] at this
              subst this
              rw [hp, h2] at hc'; cases hc'
          exact this t ht

/-- A sequence of calls is answered the same with both ko tests, if these agree on all the states passed. -/
theorem runSeen_eq {r : Forbidden} {I : State → Prop} {A : Call → Prop} (h1 : ∀ s c, I s → A c → answerSeen n r s c = answer n r s c)
    (h2 : ∀ s c, I s → A c → answer n r s c = .ok → I (apply n r s c)) : ∀ (cs : List Call) (s : State), I s → (∀ c ∈ cs, A c) →
      runSeen n r s cs = run n r s cs
  | [], _, _, _ => rfl
  | c :: cs, s, hs, hA => by
    have e : stepSeen n r s c = step n r s c := by
      unfold stepSeen step
      rw [h1 s c hs (hA c (by simp))]
    have hI : I (step n r s c).2 := by
      unfold step
      split
      · rename_i h; exact h2 s c hs (hA c (by simp)) h
      · exact hs
    unfold runSeen run
    rw [e, runSeen_eq h1 h2 cs _ hI (fun c hc => hA c (by simp [hc]))]

/-- The call is on the board. -/
def Call.On (n : Dim) : Call → Prop
  | .play p => OnBoard n p
  | _ => True

theorem two_run {r : Forbidden} (hr : r.suicide = false) {t : Color} {cs : List Call} (hcs : ∀ c ∈ cs, c.On two) :
    runSeen two r (.start (fun _ => none) t) cs = run two r (.start (fun _ => none) t) cs := by
  refine runSeen_eq (I := Follows two) (A := Call.On two) ?_ ?_ cs _ (fun b hb => by cases hb) hcs
  · intro s c hs hc
    cases c with
    | play p =>
      unfold answerSeen answer
      dsimp only
      by_cases hp : s.pos p = none
      · rw [two_ko hs hc hp, hr]; rfl
      · rw [if_pos hp, if_pos hp]
    | _ => rfl
  · intro s c hs hc ha
    cases c with
    | play p =>
      have hp : s.pos p = none := by
        unfold answer at ha
        dsimp only at ha
        by_cases h2 : s.passes = 2
        · rw [if_pos h2] at ha; cases ha
        · rw [if_neg h2] at ha
          by_cases h3 : s.pos p = none
          · exact h3
          · rw [if_pos h3] at ha; cases ha
      intro b hb
      cases hb
      refine ⟨p, hc, hp, ?_⟩
      intro x _
      show play two (!r.suicide) s.pos p s.turn x = play two true s.pos p s.turn.opp.opp x
      rw [hr]
      cases s.turn <;> rfl
    | pass => intro b hb; cases hb
    | resign _ => exact hs
    | resume => exact hs
    | komi => exact hs

/-! ### The board with one point -/

theorem one_eye {t : Color} (hp : OnBoard 1 p) (he : pos p = none) : Eye 1 pos t p := by
  obtain ⟨x, y⟩ := p
  obtain ⟨h1, h2⟩ := hp
  have hx : x = 0 := Nat.lt_one_iff.1 h1
  have hy : y = 0 := Nat.lt_one_iff.1 h2
  subst hx; subst hy
  refine ⟨he, ?_, Or.inl ?_⟩
  · rintro ⟨x, y⟩ ha ⟨hb1, hb2⟩
    have h3 : x = 0 := Nat.lt_one_iff.1 hb1
    have h4 : y = 0 := Nat.lt_one_iff.1 hb2
    subst h3; subst h4
    exact absurd ha (by decide)
  · have : corners 1 (0, 0) = [] := by decide
    unfold safeCorners
    rw [this]
    rfl

theorem one_run {r : Forbidden} (hr : r.fillEye = true) {t : Color} {cs : List Call} (hcs : ∀ c ∈ cs, c.On 1) :
    runSeen 1 r (.start (fun _ => none) t) cs = run 1 r (.start (fun _ => none) t) cs := by
  refine runSeen_eq (I := fun s => s.before = none ∧ ∀ p, s.pos p = none) (A := Call.On 1) ?_ ?_ cs _ ⟨rfl, fun _ => rfl⟩ hcs
  · intro s c hs hc
    cases c with
    | play p =>
      have k1 : ¬ KoSeen 1 s p := by rintro ⟨⟨b, hb, _⟩, _⟩; rw [hs.1] at hb; cases hb
      have k2 : ¬ Ko 1 (!r.suicide) s p := by rintro ⟨b, hb, _⟩; rw [hs.1] at hb; cases hb
      unfold answerSeen answer
      dsimp only
      rw [if_neg (fun h => k1 h.2 : ¬ (r.ko = true ∧ KoSeen 1 s p)), if_neg (fun h => k2 h.2 : ¬ (r.ko = true ∧ Ko 1 (!r.suicide) s p))]
    | _ => rfl
  · intro s c hs hc ha
    cases c with
    | play p =>
      exfalso
      unfold answer at ha
      dsimp only at ha
      split at ha
      · cases ha
      split at ha
      · cases ha
      split at ha
      · cases ha
      split at ha
      · cases ha
      rw [if_pos ⟨hr, one_eye hc (hs.2 p)⟩] at ha
      cases ha
    | pass => exact ⟨rfl, hs.2⟩
    | resign _ => exact hs
    | resume => exact hs
    | komi => exact hs

theorem one_play (hp : OnBoard 1 p) : play 1 true pos p c p = none := by
  have nl : ∀ x : Pos, ¬ (HasLiberty 1 x p ∧ x p ≠ none) := by
    rintro x ⟨⟨q, r, hl, ha, hr, hn⟩, hx⟩
    have hall : ∀ q, OnBoard 1 q → q = p := by
      rintro ⟨a, b⟩ ⟨h1, h2⟩
      obtain ⟨u, v⟩ := p
      obtain ⟨h3, h4⟩ := hp
      have e1 := Nat.lt_one_iff.1 h1
      have e2 := Nat.lt_one_iff.1 h2
      have e3 := Nat.lt_one_iff.1 h3
      have e4 := Nat.lt_one_iff.1 h4
      simp only at e1 e2 e3 e4
      rw [e1, e2, e3, e4]
    rw [hall r hr] at hn
    exact hx hn
  have a1 : place pos p c p = some c := by unfold place; rw [if_pos rfl]
  have b1 : removeDead 1 (place pos p c) c.opp p = some c := removeDead_other a1 (opp_ne c).symm
  unfold play
  rw [if_pos rfl]
  generalize removeDead 1 (place pos p c) c.opp = P at b1
  unfold removeDead
  rw [if_pos ⟨b1, fun hl => nl P ⟨hl, by rw [b1]; simp⟩⟩]

/-! ### The other boards -/

/-- White plays into a corner all whose neighbours are black stones that have another liberty: the stone disappears, Black's
stones stay. -/
theorem corner_suicide (h0 : pos (0, 0) = none)
    (hn : ∀ q, Adj (0, 0) q → OnBoard n q → pos q = some .black)
    (hl : ∀ q, OnBoard n q → pos q = some .black → ∃ r, Adj q r ∧ OnBoard n r ∧ pos r = none ∧ r ≠ (0, 0)) :
    play n true pos (0, 0) .white (0, 0) = none ∧ ¬ Captures n pos (0, 0) .white := by
  have keep : ∀ q, OnBoard n q → pos q = some .black → q ≠ (0, 0) →
      removeDead n (place pos (0, 0) .white) Color.white.opp q = some .black := by
    intro q hq hb hne
    obtain ⟨r, ha, hr, hrn, hr0⟩ := hl q hq hb
    refine removeDead_lives (by unfold place; rw [if_neg hne, hb]) ⟨q, r, .refl _, ha, hr, ?_⟩
    unfold place; rw [if_neg hr0, hrn]
  constructor
  · have b1 : removeDead n (place pos (0, 0) .white) Color.white.opp (0, 0) = some .white :=
      removeDead_other (by unfold place; rw [if_pos rfl]) (by decide)
    have b2 : ∀ q, Adj (0, 0) q → OnBoard n q → removeDead n (place pos (0, 0) .white) Color.white.opp q = some .black := by
      intro q ha hq
      exact keep q hq (hn q ha hq) (by rintro rfl; exact absurd ha (by decide))
    unfold play
    rw [if_pos rfl]
    generalize removeDead n (place pos (0, 0) .white) Color.white.opp = P at b1 b2
    have alone : ∀ r, Linked n P (0, 0) r → r = (0, 0) := by
      intro r hl
      induction hl with
      | refl => rfl
      | step _ ha hb hc ih =>
        subst ih
        rw [b2 _ ha hb, b1] at hc
        cases hc
    unfold removeDead
    rw [if_pos]
    refine ⟨b1, ?_⟩
    rintro ⟨q, r, hlk, ha, hr, hrn⟩
    rw [alone q hlk] at ha
    rw [b2 r ha hr] at hrn; cases hrn
  · rintro ⟨q, hq, hb, hr⟩
    rw [keep q hq hb (by rintro rfl; rw [h0] at hb; cases hb)] at hr
    cases hr

/-- Then the rules of Go do not see a ko there. -/
theorem corner_not_ko {r : Forbidden} {s : State} (hr : r.suicide = false) (ht : s.turn = .white) (h0 : s.pos (0, 0) = none)
    (hon : OnBoard n (0, 0)) (hn : ∀ q, Adj (0, 0) q → OnBoard n q → s.pos q = some .black)
    (hl : ∀ q, OnBoard n q → s.pos q = some .black → ∃ r, Adj q r ∧ OnBoard n r ∧ s.pos r = none ∧ r ≠ (0, 0))
    (hb : ∀ b, s.before = some b → b (0, 0) ≠ none) : (step n r s (.play (0, 0))).1 ≠ .ko := by
  obtain ⟨h1, h2⟩ := corner_suicide h0 hn hl
  have hk : ¬ Ko n (!r.suicide) s (0, 0) := by
    rintro ⟨b, hb', hs⟩
    rw [hr, ht] at hs
    exact hb b hb' (by rw [← hs _ hon]; exact h1)
  have hsk : ¬ SuperKoSeen n (!r.suicide) s (0, 0) := by
    rintro ⟨_, hc, _⟩
    rw [ht] at hc
    exact h2 hc
  have ha : answer n r s (.play (0, 0)) ≠ .ko := by
    unfold answer
    dsimp only
    rw [if_neg (fun h => hk h.2 : ¬ (r.ko = true ∧ Ko n (!r.suicide) s (0, 0))),
      if_neg (fun h => hsk h.2 : ¬ (r.superko = true ∧ SuperKoSeen n (!r.suicide) s (0, 0)))]
    split
    · simp
    split
    · simp
    split
    · simp
    split <;> simp
  unfold step
  split
  · simp
  · exact ha

end Spec

namespace Model
open Spec (OnBoard Adj Linked HasLiberty NoDead place SameOn Pos State)

variable {dbg : Bool}

/-- The calls after which an answer is not that of Go, on the sizes where the width divides the height. -/
def seenCalls (h w : Nat) : List Move :=
  if h = 1 then [.play 0 0, .play 0 0]
  else if w = 1 then [.pass, .play 0 0, .play 1 0, .play 0 0]
  else [.play 0 1, .play 0 0, .play 1 0, .play 0 0]

/-- The answers of the crate. -/
def seenAnswers (h : Nat) : List (Option PlayError) := if h = 1 then [none, none] else [none, none, none, some .ko]

def answersSeen (sk fe : Bool) (h w : Nat) : Bool :=
  okAnd (do
    let g ← Game.new (.custom h w) { komi := .fin 0, flagIllegal := ⟨true, sk, false, fe⟩, flagScore := ⟨false, false, false⟩ }
    g.run false ((seenCalls h w).map .try_)) (fun r => r.1 == seenAnswers h)

theorem answersSeen_sizes : ∀ h w : Fin 19, (w.val + 1) ∣ (h.val + 1) → ¬ (h.val = 1 ∧ w.val = 0) → ∀ sk fe : Bool, (h.val = 0 → fe = false) →
    answersSeen sk fe (h + 1) (w + 1) = true := by decide +kernel

/-- The crate's answers, under every rule that allows suicide and forbids ko. -/
theorem seen_answers {h w : Nat} (hh : 1 ≤ h) (hh' : h ≤ 19) (hw : 1 ≤ w) (hw' : w ≤ 19) (hd : w ∣ h) (hx : ¬ (h = 2 ∧ w = 1))
    {rule : Rule} (hs : rule.flagIllegal.suicide = false) (hk : rule.flagIllegal.ko = true) (hf : h = 1 → rule.flagIllegal.fillEye = false)
    {g0 : Game} (e : Game.new (.custom h w) rule = .ok g0) :
    ∃ g, g0.run false ((seenCalls h w).map .try_) = .ok (seenAnswers h, g) := by
  obtain ⟨h, rfl⟩ := Nat.exists_eq_add_of_le' hh
  obtain ⟨w, rfl⟩ := Nat.exists_eq_add_of_le' hw
  obtain ⟨k, ⟨a, b, c, d⟩, f⟩ := rule
  cases hs
  cases hk
  have := answersSeen_sizes ⟨h, by omega⟩ ⟨w, by omega⟩ hd (by simp only; omega) b d (fun h0 => hf (by simp only at h0; omega))
  unfold answersSeen at this
  obtain ⟨⟨es, x⟩, k1, k2⟩ := okAnd_iff.mp this
  obtain ⟨g1, e1, k1⟩ := bind_eq_ok k1
  have hes : es = seenAnswers (h + 1) := by simpa using k2
  subst hes
  have s : SamePlay g1 g0 := by
    unfold Game.new at e e1
    obtain ⟨b, eb, e⟩ := bind_eq_ok e
    obtain ⟨b', eb', e1⟩ := bind_eq_ok e1
    rw [eb] at eb'
    cases eb'
    cases e
    cases e1
    exact ⟨⟨rfl, rfl, rfl, rfl, rfl, rfl, rfl, rfl, rfl⟩, rfl⟩
  have hsame : ∀ l : List Move, List.Forall₂ SameCall (l.map .try_) (l.map .try_) := by
    intro l
    induction l with
    | nil => exact .nil
    | cons m l ih => exact .cons (.try_ m) ih
  have := C108_run (dbg := false) (hsame (seenCalls (h + 1) (w + 1))) s
  rw [k1] at this
  revert this
  generalize g0.run false ((seenCalls (h + 1) (w + 1)).map .try_) = y
  intro this
  cases this
  exact ⟨_, rfl⟩

/-- They are not those of Go. -/
theorem seen_spec_ne {h w : Nat} (hh : 1 ≤ h) (hw : 1 ≤ w) (hd : w ∣ h) (hx : ¬ (h = 2 ∧ w = 1)) {r : Spec.Forbidden}
    (hs : r.suicide = false) (hk : r.ko = true) :
    (Spec.run ⟨h, w⟩ r (.start (fun _ => none) .black) ((seenCalls h w).map (fun m => (GOp.try_ m).call))).1 ≠
      (seenAnswers h).map toAnswer := by
  intro ha
  by_cases h1 : h = 1
  · subst h1
    obtain rfl : w = 1 := Nat.le_antisymm (Nat.le_of_dvd (by decide) hd) hw
    simp only [seenCalls, seenAnswers, if_true, List.map_cons, List.map_nil, GOp.call, Move.call, Spec.run, List.cons.injEq, and_true] at ha
    obtain ⟨a1, a2⟩ := ha
    rw [Spec.step_ok a1] at a2
    have hon : OnBoard 1 (0, 0) := by decide
    have hall : ∀ q, OnBoard 1 q → q = (0, 0) := by
      rintro ⟨x, y⟩ ⟨h1, h2⟩
      exact Prod.ext (Nat.lt_one_iff.1 h1) (Nat.lt_one_iff.1 h2)
    have a3 : Spec.answer 1 r (Spec.apply 1 r (.start (fun _ => none) .black) (.play (0, 0))) (.play (0, 0)) = .ko := by
      have hp : (Spec.apply 1 r (.start (fun _ => none) .black) (.play (0, 0))).pos (0, 0) = none := by
        show Spec.play 1 (!r.suicide) _ (0, 0) _ (0, 0) = none
        rw [hs]; exact Spec.one_play hon
      unfold Spec.answer
      dsimp only
      rw [if_neg (by simp [Spec.apply]), if_neg (by rw [hp]; simp), if_neg (by rw [hs]; simp), if_pos]
      refine ⟨hk, _, rfl, fun q hq => ?_⟩
      rw [hall q hq, hs]
      exact Spec.one_play hon
    unfold Spec.step at a2
    rw [show (⟨1, 1⟩ : Dim) = 1 from rfl, a3] at a2
    simp [toAnswer] at a2
  · by_cases h2 : w = 1
    · subst h2
      have h3 : 3 ≤ h := by omega
      simp only [seenCalls, seenAnswers, h1, if_true, if_false, List.map_cons, List.map_nil, GOp.call, Move.call, Spec.run,
        List.cons.injEq, and_true, toAnswer] at ha
      obtain ⟨a1, a2, a3, a4⟩ := ha
      rw [Spec.step_ok a1] at a2 a3 a4
      rw [Spec.step_ok a2] at a3 a4
      rw [Spec.step_ok a3] at a4
      have on : ∀ x, x ≤ 2 → OnBoard ⟨h, 1⟩ (x, 0) := fun x hx => ⟨by simp only; omega, by simp only; omega⟩
      revert a4
      simp only [Spec.apply, State.start, Color.opp, hs, Bool.not_false]
      generalize hp1 : Spec.play ⟨h, 1⟩ true (fun _ => none) (0, 0) Color.white = p1
      generalize hp2 : Spec.play ⟨h, 1⟩ true p1 (1, 0) Color.black = p2
      have b1 : p1 (0, 0) = some .white := by
        rw [← hp1]
        exact Spec.play_stays (q := (1, 0)) rfl (by decide) (on 1 (by omega)) (by decide)
      have b2 : ∀ q, q ≠ (0, 0) → p1 q = none := fun q hq => by rw [← hp1]; exact Spec.play_none rfl hq
      have c1 : p2 (1, 0) = some .black := by
        rw [← hp2]
        exact Spec.play_stays (q := (2, 0)) (b2 _ (by decide)) (by decide) (on 2 (by omega)) (by decide)
      have c2 : ∀ q, q ≠ (0, 0) → q ≠ (1, 0) → p2 q = none := fun q hq hq' => by rw [← hp2]; exact Spec.play_none (b2 q hq) hq'
      have c3 : p2 (0, 0) = none := by
        have key : Spec.removeDead ⟨h, 1⟩ (place p1 (1, 0) .black) Color.black.opp (0, 0) = none := by
          have e0 : place p1 (1, 0) Color.black (0, 0) = some .white := by unfold place; rw [if_neg (by decide), b1]
          have nb : ∀ q, Adj (0, 0) q → OnBoard ⟨h, 1⟩ q → q = (1, 0) := by
            rintro ⟨x, y⟩ ha ⟨_, hb⟩
            unfold Adj at ha
            simp only at ha hb
            have : x = 1 ∧ y = 0 := by omega
            rw [this.1, this.2]
          have e1 : place p1 (1, 0) Color.black (1, 0) = some .black := by unfold place; rw [if_pos rfl]
          generalize place p1 (1, 0) Color.black = P at e0 e1
          unfold Spec.removeDead
          rw [if_pos]
          refine ⟨e0, ?_⟩
          have alone : ∀ r, Linked ⟨h, 1⟩ P (0, 0) r → r = (0, 0) := by
            intro r hl
            induction hl with
            | refl => rfl
            | step _ ha hb hc ih =>
              subst ih
              rw [nb _ ha hb, e1, e0] at hc
              cases hc
          rintro ⟨q, r, hlk, ha, hr, hrn⟩
          rw [alone q hlk] at ha
          rw [nb r ha hr, e1] at hrn; cases hrn
        rw [← hp2]
        unfold Spec.play
        rw [if_pos rfl]
        exact Spec.removeDead_none key
      refine Spec.corner_not_ko hs rfl c3 (on 0 (by omega)) ?_ ?_ ?_
      · rintro ⟨x, y⟩ ha ⟨_, hb⟩
        unfold Adj at ha
        simp only at ha hb
        have : x = 1 ∧ y = 0 := by omega
        rw [this.1, this.2]; exact c1
      · intro q _ hq
        change p2 q = some .black at hq
        have : q = (1, 0) := by
          refine Classical.byContradiction fun h' => ?_
          by_cases h0 : q = (0, 0)
          · rw [h0] at hq; rw [c3] at hq; cases hq
          · rw [c2 q h0 h'] at hq; cases hq
        subst this
        exact ⟨(2, 0), by decide, on 2 (by omega), c2 _ (by decide) (by decide), by decide⟩
      · intro b hb
        cases hb
        rw [b1]; simp
    · have hw2 : 2 ≤ w := by omega
      have hh2 : 2 ≤ h := Nat.le_trans hw2 (Nat.le_of_dvd (by omega) hd)
      simp only [seenCalls, seenAnswers, h1, h2, if_false, List.map_cons, List.map_nil, GOp.call, Move.call, Spec.run,
        List.cons.injEq, and_true, toAnswer] at ha
      obtain ⟨a1, a2, a3, a4⟩ := ha
      rw [Spec.step_ok a1] at a2 a3 a4
      rw [Spec.step_ok a2] at a3 a4
      rw [Spec.step_ok a3] at a4
      have on : ∀ x y, x ≤ 1 → y ≤ 1 → OnBoard ⟨h, w⟩ (x, y) := fun x y hx hy => ⟨by simp only; omega, by simp only; omega⟩
      revert a4
      simp only [Spec.apply, State.start, Color.opp, hs, Bool.not_false]
      generalize hp0 : Spec.play ⟨h, w⟩ true (fun _ => none) (0, 1) Color.black = p0
      generalize hp1 : Spec.play ⟨h, w⟩ true p0 (0, 0) Color.white = p1
      generalize hp2 : Spec.play ⟨h, w⟩ true p1 (1, 0) Color.black = p2
      have z1 : p0 (0, 1) = some .black := by
        rw [← hp0]
        exact Spec.play_stays (q := (1, 1)) rfl (by decide) (on _ _ (by omega) (by omega)) (by decide)
      have z2 : ∀ q, q ≠ (0, 1) → p0 q = none := fun q hq => by rw [← hp0]; exact Spec.play_none rfl hq
      have b0 : p1 (0, 1) = some .black := by
        rw [← hp1]
        exact Spec.play_keeps (r := (1, 1)) z1 (by decide) (on _ _ (by omega) (by omega)) (z2 _ (by decide)) (by decide) (by decide)
      have b1 : p1 (0, 0) = some .white := by
        rw [← hp1]
        exact Spec.play_stays (q := (1, 0)) (z2 _ (by decide)) (by decide) (on _ _ (by omega) (by omega)) (by decide)
      have b2 : ∀ q, q ≠ (0, 0) → q ≠ (0, 1) → p1 q = none := fun q hq hq' => by rw [← hp1]; exact Spec.play_none (z2 q hq') hq
      have c0 : p2 (0, 1) = some .black := by
        rw [← hp2]
        exact Spec.play_keeps (r := (1, 1)) b0 (by decide) (on _ _ (by omega) (by omega)) (b2 _ (by decide) (by decide)) (by decide) (by decide)
      have c1 : p2 (1, 0) = some .black := by
        rw [← hp2]
        exact Spec.play_stays (q := (1, 1)) (b2 _ (by decide) (by decide)) (by decide) (on _ _ (by omega) (by omega)) (by decide)
      have c2 : ∀ q, q ≠ (0, 0) → q ≠ (0, 1) → q ≠ (1, 0) → p2 q = none := fun q h1 h2 h3 => by
        rw [← hp2]; exact Spec.play_none (b2 q h1 h2) h3
      have nb : ∀ q, Adj (0, 0) q → OnBoard ⟨h, w⟩ q → q = (0, 1) ∨ q = (1, 0) := by
        rintro ⟨x, y⟩ ha _
        unfold Adj at ha
        simp only at ha
        have : (x = 0 ∧ y = 1) ∨ (x = 1 ∧ y = 0) := by omega
        rcases this with ⟨rfl, rfl⟩ | ⟨rfl, rfl⟩ <;> simp
      have c3 : p2 (0, 0) = none := by
        have key : Spec.removeDead ⟨h, w⟩ (place p1 (1, 0) .black) Color.black.opp (0, 0) = none := by
          have e0 : place p1 (1, 0) Color.black (0, 0) = some .white := by unfold place; rw [if_neg (by decide), b1]
          have e1 : ∀ q, Adj (0, 0) q → OnBoard ⟨h, w⟩ q → place p1 (1, 0) Color.black q = some .black := by
            intro q ha hq
            rcases nb q ha hq with rfl | rfl
            · unfold place; rw [if_neg (by decide), b0]
            · unfold place; rw [if_pos rfl]
          generalize place p1 (1, 0) Color.black = P at e0 e1
          unfold Spec.removeDead
          rw [if_pos]
          refine ⟨e0, ?_⟩
          have alone : ∀ r, Linked ⟨h, w⟩ P (0, 0) r → r = (0, 0) := by
            intro r hl
            induction hl with
            | refl => rfl
            | step _ ha hb hc ih =>
              subst ih
              rw [e1 _ ha hb, e0] at hc
              cases hc
          rintro ⟨q, r, hlk, ha, hr, hrn⟩
          rw [alone q hlk] at ha
          rw [e1 r ha hr] at hrn; cases hrn
        rw [← hp2]
        unfold Spec.play
        rw [if_pos rfl]
        exact Spec.removeDead_none key
      refine Spec.corner_not_ko hs rfl c3 (on 0 0 (by omega) (by omega)) ?_ ?_ ?_
      · intro q ha hq
        rcases nb q ha hq with rfl | rfl
        · exact c0
        · exact c1
      · intro q _ hq
        change p2 q = some .black at hq
        have hfree : p2 (1, 1) = none := c2 _ (by decide) (by decide) (by decide)
        by_cases q1 : q = (0, 1)
        · subst q1
          exact ⟨(1, 1), by decide, on _ _ (by omega) (by omega), hfree, by decide⟩
        · by_cases q2 : q = (1, 0)
          · subst q2
            exact ⟨(1, 1), by decide, on _ _ (by omega) (by omega), hfree, by decide⟩
          · exfalso
            by_cases q0 : q = (0, 0)
            · rw [q0] at hq; rw [c3] at hq; cases hq
            · rw [c2 q q0 q1 q2] at hq; cases hq
      · intro b hb
        cases hb
        rw [b1]; simp

/-- **C107**, the failing sizes under a rule that allows suicide and forbids ko: in a release build at most four on-board calls
return, and their answers are not those of the abstract game. -/
theorem C107_differs_ko {h w : Nat} (hh : 1 ≤ h) (hh' : h ≤ 19) (hw : 1 ≤ w) (hw' : w ≤ 19) (hd : w ∣ h) {rule : Rule}
    (hs : rule.flagIllegal.suicide = false) (hk : rule.flagIllegal.ko = true) (hx : ¬ (h = 2 ∧ w = 1))
    (hx' : ¬ (h = 1 ∧ w = 1 ∧ rule.flagIllegal.fillEye = true)) {g0 : Game} (e : Game.new (.custom h w) rule = .ok g0) :
    ∃ (cs : List GOp) (es : List (Option PlayError)) (g : Game),
      cs.length ≤ 4 ∧ (∀ c ∈ cs, c.OnBoard ⟨h, w⟩) ∧ g0.run false cs = .ok (es, g) ∧
      es.map toAnswer ≠ (Spec.run ⟨h, w⟩ rule.flagIllegal.forbidden (.start (fun _ => none) .black) (cs.map GOp.call)).1 := by
  have hf : h = 1 → rule.flagIllegal.fillEye = false := by
    intro h1
    have : w = 1 := Nat.le_antisymm (by subst h1; exact Nat.le_of_dvd (by decide) hd) hw
    cases hfe : rule.flagIllegal.fillEye with
    | false => rfl
    | true => exact absurd ⟨h1, this, hfe⟩ hx'
  obtain ⟨g, eg⟩ := seen_answers hh hh' hw hw' hd hx hs hk hf e
  refine ⟨_, _, g, ?_, ?_, eg, ?_⟩
  · rw [List.length_map]; unfold seenCalls; split
    · decide
    split <;> decide
  · intro c hc
    obtain ⟨m, hm, rfl⟩ := List.mem_map.1 hc
    unfold seenCalls at hm
    split at hm
    · simp only [List.mem_cons, List.not_mem_nil, or_false, or_self] at hm
      subst hm; exact ⟨by simp only; omega, by simp only; omega⟩
    split at hm
    · simp only [List.mem_cons, List.not_mem_nil, or_false] at hm
      rcases hm with rfl | rfl | rfl | rfl
      · trivial
      all_goals exact ⟨by simp only; omega, by simp only; omega⟩
    · have := Nat.le_of_dvd (by omega) hd
      simp only [List.mem_cons, List.not_mem_nil, or_false] at hm
      rcases hm with rfl | rfl | rfl | rfl
      all_goals exact ⟨by simp only; omega, by simp only; omega⟩
  · intro h1
    rw [List.map_map] at h1
    exact seen_spec_ne (r := rule.flagIllegal.forbidden) hh hw hd hx hs hk h1.symm

/-- **C107** under the remaining rules, those that allow suicide and forbid ko: the crate plays Go on the board with two rows and one
column, on the board with one point if filling eyes is forbidden (there no stone is ever accepted), and on no other. -/
theorem C107_suicide_ko {h w : Nat} (hh : 1 ≤ h) (hh' : h ≤ 19) (hw : 1 ≤ w) (hw' : w ≤ 19) {rule : Rule}
    (hs : rule.flagIllegal.suicide = false) (hk : rule.flagIllegal.ko = true) :
    PlaysGo dbg h w rule ↔ (h = 2 ∧ w = 1) ∨ (h = 1 ∧ w = 1 ∧ rule.flagIllegal.fillEye = true) := by
  obtain ⟨g0, e⟩ : ∃ g0, Game.new (.custom h w) rule = .ok g0 := by
    rcases C53_new_partial (.custom h w) rule (show h < 256 by omega) (show w < 256 by omega) with ⟨_, hn⟩ | ⟨_, g, e, _⟩
    · exact absurd ⟨hh', hw'⟩ hn
    · exact ⟨g, e⟩
  constructor
  · intro hp
    have hd : w ∣ h := by
      refine Classical.byContradiction fun hd => ?_
      obtain ⟨cs, es, g, hl, hon, eg, hdiff⟩ := C107_differs hh hh' hw hw' hd e
      obtain ⟨es', g', eg', h1, h2⟩ := hp g0 e cs hon (by omega)
      have : es' = es ∧ g' = g := by
        have eg'' : g0.run false cs = .ok (es', g') := by
          cases dbg with
          | false => exact eg'
          | true => exact (Game.run_le cs g0).ok _ eg'
        rw [eg] at eg''
        cases eg''; exact ⟨rfl, rfl⟩
      obtain ⟨rfl, rfl⟩ := this
      rcases hdiff with hdiff | ⟨p, hpb, hdiff⟩
      · exact hdiff h1
      · exact hdiff (h2.colours p hpb)
    refine Classical.byContradiction fun hx => ?_
    rw [not_or] at hx
    obtain ⟨cs, es, g, hl, hon, eg, hdiff⟩ := C107_differs_ko hh hh' hw hw' hd hs hk hx.1 hx.2 e
    obtain ⟨es', g', eg', h1, _⟩ := hp g0 e _ hon (by omega)
    have : es' = es := by
      have eg'' : g0.run false cs = .ok (es', g') := by
        cases dbg with
        | false => exact eg'
        | true => exact (Game.run_le cs g0).ok _ eg'
      rw [eg] at eg''
      cases eg''; rfl
    subst this
    exact hdiff h1
  · intro hx g1 e1 cs hcs hl
    rw [e] at e1
    cases e1
    have hd : w ∣ h := by rcases hx with ⟨rfl, rfl⟩ | ⟨rfl, rfl, _⟩ <;> decide
    have hf : Fresh dbg ⟨h, w⟩ 0 g0 := .new hd (by
      show (u8 h, u8 w) = (h, w)
      unfold u8
      rw [Nat.mod_eq_of_lt (show h < 256 by omega), Nat.mod_eq_of_lt (show w < 256 by omega)]) e
    have hb : g0.goban.view = (fun _ => none) ∧ g0.rule = rule ∧ g0.turn = .black ∧ g0.outcome = none := by
      unfold Game.new at e
      obtain ⟨b, eb, e⟩ := bind_eq_ok e
      cases e
      exact ⟨new_view_empty eb, rfl, rfl, rfl⟩
    have hnd : NoDead ⟨h, w⟩ g0.goban.view := by
      intro p _ hp
      rw [hb.1] at hp
      exact absurd rfl hp
    obtain ⟨es, g, eg, _⟩ := C49_total hf hnd hcs (by omega)
    have := C49_refines_every_rule hf hnd hcs eg
    rw [hb.1, hb.2.1, hb.2.2.1, hb.2.2.2] at this
    have hcalls : ∀ c ∈ cs.map GOp.call, c.On ⟨h, w⟩ := by
      intro c hc
      obtain ⟨o, ho, rfl⟩ := List.mem_map.1 hc
      have := hcs o ho
      cases o with
      | try_ m => cases m <;> exact this
      | _ => trivial
    have hrun : Spec.runSeen ⟨h, w⟩ rule.flagIllegal.forbidden (.start (fun _ => none) .black) (cs.map GOp.call) =
        Spec.run ⟨h, w⟩ rule.flagIllegal.forbidden (.start (fun _ => none) .black) (cs.map GOp.call) := by
      rcases hx with ⟨rfl, rfl⟩ | ⟨rfl, rfl, hfe⟩
      · exact Spec.two_run hs hcalls
      · exact Spec.one_run hfe hcalls
    rw [hrun] at this
    exact ⟨es, g, eg, this⟩

/-- **C107**, every rule: when the crate plays Go. -/
theorem C107_every_rule {h w : Nat} (hh : 1 ≤ h) (hh' : h ≤ 19) (hw : 1 ≤ w) (hw' : w ≤ 19) {rule : Rule} :
    PlaysGo dbg h w rule ↔ w ∣ h ∧ (rule.flagIllegal.suicide = true ∨ rule.flagIllegal.ko = false ∨ (h = 2 ∧ w = 1) ∨
      (h = 1 ∧ w = 1 ∧ rule.flagIllegal.fillEye = true)) := by
  by_cases hr : rule.flagIllegal.suicide = true ∨ rule.flagIllegal.ko = false
  · rw [C107_sizes hh hh' hw hw' hr]
    exact ⟨fun h => ⟨h, hr.elim Or.inl (fun h => Or.inr (Or.inl h))⟩, fun h => h.1⟩
  · rw [not_or] at hr
    rw [C107_suicide_ko hh hh' hw hw' (by simpa using hr.1) (by simpa using hr.2)]
    constructor
    · rintro (⟨rfl, rfl⟩ | ⟨rfl, rfl, hf⟩)
      · exact ⟨by decide, Or.inr (Or.inr (Or.inl ⟨rfl, rfl⟩))⟩
      · exact ⟨by decide, Or.inr (Or.inr (Or.inr ⟨rfl, rfl, hf⟩))⟩
    · rintro ⟨_, h | h | h | h⟩
      · exact absurd h hr.1
      · exact absurd h hr.2
      · exact Or.inl h
      · exact Or.inr h

/-- Both cases occur: a rule that allows suicide and forbids ko. -/
example : ¬ PlaysGo dbg 9 9 { CHINESE with flagIllegal := ⟨true, false, false, false⟩ } ∧
    PlaysGo dbg 2 1 { CHINESE with flagIllegal := ⟨true, false, false, false⟩ } := by
  constructor
  · rw [C107_every_rule (by decide) (by decide) (by decide) (by decide)]; decide
  · rw [C107_every_rule (by decide) (by decide) (by decide) (by decide)]; decide

end Model
