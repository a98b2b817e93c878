import Verif.Model.Words
import Verif.Props.Simulate
import Verif.Props.Room
import Verif.Props.Counting
/-!
# C95: flags are words, the history is a hash set
-/

namespace Model
open Spec (OnBoard)

variable {dbg : Bool} {n : Dim} {m : Nat} {g : Game}

/-! ## Words -/

/-- What the four bits say. -/
def IllegalRules.ofBits (w : FlagUInt) : IllegalRules :=
  { ko := w.getLsbD 0, superko := w.getLsbD 1, suicide := w.getLsbD 2, fillEye := w.getLsbD 3 }

/-- What the three bits say. -/
def ScoreRules.ofBits (w : FlagUInt) : ScoreRules :=
  { stones := w.getLsbD 0, komi := w.getLsbD 1, prisonners := w.getLsbD 2 }

/-- The word of a flag set. -/
def IllegalRules.bits (r : IllegalRules) : FlagUInt :=
  (if r.ko then KO else 0) ||| (if r.superko then SUPERKO else 0) ||| (if r.suicide then SUICIDE else 0) |||
    (if r.fillEye then FILLEYE else 0)

/-- The word of a flag set. -/
def ScoreRules.bits (r : ScoreRules) : FlagUInt :=
  (if r.stones then STONES else 0) ||| (if r.komi then KOMI else 0) ||| (if r.prisonners then PRISONNERS else 0)

theorem contains_bit (w : FlagUInt) {k : Nat} (hk : k < 32) : FlagUInt.contains w (1#32 <<< k) = w.getLsbD k := by
  unfold FlagUInt.contains
  rw [Bool.eq_iff_iff, decide_eq_true_iff]
  constructor
  · intro h
    have := congrArg (fun x => BitVec.getLsbD x k) h
    simp [hk] at this
    exact this
  · intro h
    apply BitVec.eq_of_getLsbD_eq
    intro i hi
    by_cases hik : i = k
    · subst hik
      simp [h]
    · have : (1#32 <<< k).getLsbD i = false := by
        rw [BitVec.getLsbD_shiftLeft]
        by_cases hlt : i < k
        · simp [hlt]
        · have : i - k ≠ 0 := by omega
          simp [this]
      simp [this]

/-- **C95**: asking a word for a flag is asking the record. -/
theorem C95_contains (w : FlagUInt) :
    (w.contains IllegalRules.KO = (IllegalRules.ofBits w).ko ∧ w.contains IllegalRules.SUPERKO = (IllegalRules.ofBits w).superko ∧
      w.contains IllegalRules.SUICIDE = (IllegalRules.ofBits w).suicide ∧
      w.contains IllegalRules.FILLEYE = (IllegalRules.ofBits w).fillEye) ∧
    w.contains ScoreRules.STONES = (ScoreRules.ofBits w).stones ∧ w.contains ScoreRules.KOMI = (ScoreRules.ofBits w).komi ∧
      w.contains ScoreRules.PRISONNERS = (ScoreRules.ofBits w).prisonners := by
  have h0 := contains_bit w (k := 0) (by decide)
  rw [show 1#32 <<< 0 = 1#32 from rfl] at h0
  have h1 := contains_bit w (k := 1) (by decide)
  have h2 := contains_bit w (k := 2) (by decide)
  have h3 := contains_bit w (k := 3) (by decide)
  exact ⟨⟨h0, h1, h2, h3⟩, h0, h1, h2⟩

theorem high_bits {w all : FlagUInt} {k : Nat} (hall : ∀ i, all.getLsbD i = decide (i < k)) (h : w &&& ~~~ all = 0) {i : Nat}
    (hi : k ≤ i) : w.getLsbD i = false := by
  by_cases h32 : i < 32
  · have := congrArg (fun x => BitVec.getLsbD x i) h
    have ha : (~~~ all).getLsbD i = true := by
      rw [BitVec.getLsbD_not, hall, decide_eq_false (Nat.not_lt.2 hi), decide_eq_true h32]; rfl
    simp only [BitVec.getLsbD_and, ha, Bool.and_true] at this
    rw [this]; exact BitVec.getLsbD_zero
  · exact BitVec.getLsbD_of_ge w i (by omega)

theorem illegal_all (i : Nat) : IllegalRules.allBits.getLsbD i = decide (i < 4) := by
  by_cases h : i < 32
  · revert i; decide
  · rw [BitVec.getLsbD_of_ge _ _ (by omega), decide_eq_false (by omega)]

theorem score_all (i : Nat) : ScoreRules.allBits.getLsbD i = decide (i < 3) := by
  by_cases h : i < 32
  · revert i; decide
  · rw [BitVec.getLsbD_of_ge _ _ (by omega), decide_eq_false (by omega)]

/-- **C95**: what the operations on words do to the flags: union, intersection, difference, complement and `from_bits_truncate`. -/
theorem C95_operations (a b : FlagUInt) :
    (∀ x y, IllegalRules.ofBits a = x → IllegalRules.ofBits b = y →
      IllegalRules.ofBits (a ||| b) = ⟨x.ko || y.ko, x.superko || y.superko, x.suicide || y.suicide, x.fillEye || y.fillEye⟩ ∧
      IllegalRules.ofBits (a &&& b) = ⟨x.ko && y.ko, x.superko && y.superko, x.suicide && y.suicide, x.fillEye && y.fillEye⟩ ∧
      IllegalRules.ofBits (a &&& ~~~ b) = ⟨x.ko && !y.ko, x.superko && !y.superko, x.suicide && !y.suicide, x.fillEye && !y.fillEye⟩ ∧
      IllegalRules.ofBits (.complement IllegalRules.allBits a) = ⟨!x.ko, !x.superko, !x.suicide, !x.fillEye⟩ ∧
      IllegalRules.ofBits (.fromBitsTruncate IllegalRules.allBits a) = x) ∧
    (∀ x y, ScoreRules.ofBits a = x → ScoreRules.ofBits b = y →
      ScoreRules.ofBits (a ||| b) = ⟨x.stones || y.stones, x.komi || y.komi, x.prisonners || y.prisonners⟩ ∧
      ScoreRules.ofBits (a &&& b) = ⟨x.stones && y.stones, x.komi && y.komi, x.prisonners && y.prisonners⟩ ∧
      ScoreRules.ofBits (a &&& ~~~ b) = ⟨x.stones && !y.stones, x.komi && !y.komi, x.prisonners && !y.prisonners⟩ ∧
      ScoreRules.ofBits (.complement ScoreRules.allBits a) = ⟨!x.stones, !x.komi, !x.prisonners⟩ ∧
      ScoreRules.ofBits (.fromBitsTruncate ScoreRules.allBits a) = x) := by
  constructor
  · rintro x y rfl rfl
    unfold IllegalRules.ofBits FlagUInt.complement FlagUInt.fromBitsTruncate
    simp [illegal_all]
  · rintro x y rfl rfl
    unfold ScoreRules.ofBits FlagUInt.complement FlagUInt.fromBitsTruncate
    simp [score_all]

/-- **C95**: the words that `from_bits` takes are the records, one for one; so equal words are equal records. -/
theorem C95_records :
    (∀ r : IllegalRules, IllegalRules.ofBits r.bits = r ∧ FlagUInt.fromBits IllegalRules.allBits r.bits = some r.bits) ∧
    (∀ w, FlagUInt.fromBits IllegalRules.allBits w ≠ none → (IllegalRules.ofBits w).bits = w) ∧
    (∀ r : ScoreRules, ScoreRules.ofBits r.bits = r ∧ FlagUInt.fromBits ScoreRules.allBits r.bits = some r.bits) ∧
    (∀ w, FlagUInt.fromBits ScoreRules.allBits w ≠ none → (ScoreRules.ofBits w).bits = w) := by
  have valid : ∀ {all w : FlagUInt}, FlagUInt.fromBits all w ≠ none → w &&& ~~~ all = 0 := by
    intro all w h
    unfold FlagUInt.fromBits at h
    split at h
    · assumption
    · exact absurd rfl h
  refine ⟨fun r => ?_, fun w h => ?_, fun r => ?_, fun w h => ?_⟩
  · rcases r with ⟨a, b, c, d⟩
    cases a <;> cases b <;> cases c <;> cases d <;> decide
  · have hi := fun i => high_bits (i := i) illegal_all (valid h)
    have hr : ∀ r : IllegalRules, IllegalRules.ofBits r.bits = r ∧ ∀ i < 32, 4 ≤ i → r.bits.getLsbD i = false := by
      rintro ⟨a, b, c, d⟩
      cases a <;> cases b <;> cases c <;> cases d <;> decide
    obtain ⟨h1, h2⟩ := hr (IllegalRules.ofBits w)
    apply BitVec.eq_of_getLsbD_eq
    intro i hi32
    by_cases h4 : 4 ≤ i
    · rw [h2 i hi32 h4, hi i h4]
    · unfold IllegalRules.ofBits at h1
      injection h1 with x0 x1 x2 x3
      have : i = 0 ∨ i = 1 ∨ i = 2 ∨ i = 3 := by omega
      rcases this with rfl | rfl | rfl | rfl
      · exact x0
      · exact x1
      · exact x2
      · exact x3
  · rcases r with ⟨a, b, c⟩
    cases a <;> cases b <;> cases c <;> decide
  · have hi := fun i => high_bits (i := i) score_all (valid h)
    have hr : ∀ r : ScoreRules, ScoreRules.ofBits r.bits = r ∧ ∀ i < 32, 3 ≤ i → r.bits.getLsbD i = false := by
      rintro ⟨a, b, c⟩
      cases a <;> cases b <;> cases c <;> decide
    obtain ⟨h1, h2⟩ := hr (ScoreRules.ofBits w)
    apply BitVec.eq_of_getLsbD_eq
    intro i hi32
    by_cases h4 : 3 ≤ i
    · rw [h2 i hi32 h4, hi i h4]
    · unfold ScoreRules.ofBits at h1
      injection h1 with x0 x1 x2
      have : i = 0 ∨ i = 1 ∨ i = 2 := by omega
      rcases this with rfl | rfl | rfl
      · exact x0
      · exact x1
      · exact x2

/-- **C95**: complement and `from_bits_truncate` give words without unknown flags, whatever word they are given; so they can be read
back with `from_bits`. -/
theorem C95_known (w : FlagUInt) :
    FlagUInt.fromBits IllegalRules.allBits (.complement IllegalRules.allBits w) = some (.complement IllegalRules.allBits w) ∧
    FlagUInt.fromBits IllegalRules.allBits (.fromBitsTruncate IllegalRules.allBits w) = some (.fromBitsTruncate IllegalRules.allBits w) ∧
    FlagUInt.fromBits ScoreRules.allBits (.complement ScoreRules.allBits w) = some (.complement ScoreRules.allBits w) ∧
    FlagUInt.fromBits ScoreRules.allBits (.fromBitsTruncate ScoreRules.allBits w) = some (.fromBitsTruncate ScoreRules.allBits w) := by
  have key : ∀ a b : FlagUInt, FlagUInt.fromBits b (a &&& b) = some (a &&& b) := by
    intro a b
    unfold FlagUInt.fromBits
    rw [if_pos]
    apply BitVec.eq_of_getLsbD_eq
    intro i hi
    simp [hi]
  exact ⟨key _ _, key _ _, key _ _, key _ _⟩

/-- **C95**: the two rules of the crate. -/
theorem C95_rules : IllegalRules.ofBits japaneseIllegal = JAPANESE.flagIllegal ∧ ScoreRules.ofBits japaneseScore = JAPANESE.flagScore ∧
    IllegalRules.ofBits chineseIllegal = CHINESE.flagIllegal ∧ ScoreRules.ofBits chineseScore = CHINESE.flagScore := by
  decide

/-! ## The history -/

/-- What is assumed of a lookup: it looks at entries only, and at all those whose hash is the one sought. -/
def Lookup.Complete (look : Lookup) : Prop :=
  ∀ h g, (∀ x ∈ look h g, x ∈ h) ∧ ∀ x ∈ h, x.hashValue = g.hashValue → x ∈ look h g

theorem beq_hash {a b : Goban} (h : a.beq b = .ok true) : a.hashValue = b.hashValue := by
  unfold Goban.beq at h
  split at h
  · cases h
  next hc =>
    apply Classical.byContradiction
    intro hne
    exact hc (Or.inr hne)

theorem historyContains_any {b : Goban} : ∀ {l : List Goban}, (∀ x ∈ l, ∃ r, x.beq b = .ok r) →
    ∃ r, historyContains l b = .ok r ∧ (r = true ↔ ∃ x ∈ l, x.beq b = .ok true)
  | [], _ => ⟨false, rfl, by simp⟩
  | x :: l, h => by
    obtain ⟨r, e⟩ := h x (by simp)
    obtain ⟨s, e', hs⟩ := historyContains_any (l := l) (fun y hy => h y (by simp [hy]))
    unfold historyContains
    rw [e, ok_bind]
    cases r with
    | true => exact ⟨true, rfl, by simp [e]⟩
    | false =>
      refine ⟨s, e', ?_⟩
      rw [hs]
      simp [e]

theorem hashedContains_any {b : Goban} : ∀ {l : List Goban}, (∀ x ∈ l, ∃ r, x.beq b = .ok r) →
    ∃ r, hashedContains l b = .ok r ∧ (r = true ↔ ∃ x ∈ l, x.beq b = .ok true)
  | [], _ => ⟨false, rfl, by simp⟩
  | x :: l, h => by
    obtain ⟨r, e⟩ := h x (by simp)
    obtain ⟨s, e', hs⟩ := hashedContains_any (l := l) (fun y hy => h y (by simp [hy]))
    unfold hashedContains
    by_cases hh : x.hashValue = b.hashValue
    · rw [if_pos hh, e, ok_bind]
      cases r with
      | true => exact ⟨true, rfl, by simp [e]⟩
      | false =>
        refine ⟨s, e', ?_⟩
        rw [hs]
        simp [e]
    · rw [if_neg hh]
      refine ⟨s, e', ?_⟩
      rw [hs]
      constructor
      · rintro ⟨y, hy, h⟩; exact ⟨y, by simp [hy], h⟩
      · rintro ⟨y, hy, hq⟩
        rcases List.mem_cons.1 hy with rfl | hy
        · exact absurd (beq_hash hq) hh
        · exact ⟨y, hy, hq⟩

theorem historyContainsH_eq {look : Lookup} (hl : look.Complete) {h : List Goban} {b : Goban} (hb : ∀ x ∈ h, ∃ r, x.beq b = .ok r) :
    historyContainsH look h b = historyContains h b := by
  obtain ⟨h1, h2⟩ := hl h b
  obtain ⟨r, e, hr⟩ := historyContains_any hb
  obtain ⟨s, e', hs⟩ := hashedContains_any (l := look h b) (fun x hx => hb x (h1 x hx))
  unfold historyContainsH
  rw [e, e']
  congr 1
  rw [Bool.eq_iff_iff, hr, hs]
  constructor
  · rintro ⟨x, hx, hq⟩; exact ⟨x, h1 x hx, hq⟩
  · rintro ⟨x, hx, hq⟩; exact ⟨x, h2 x hx (beq_hash hq), hq⟩

/-- **C95**: whatever entries a lookup by hash looks at, as long as it looks at all with the hash sought, the answer is whether an
equal board is in the history. -/
theorem C95_history {look : Lookup} (hl : look.Complete) {dbg' : Bool} {n' : Dim} {m' : Nat} {b : Goban} (h : Reach dbg n m g)
    (hb : Board dbg' n' m' b) :
    ∃ r, historyContainsH look g.history b = .ok r ∧ (r = true ↔ ∃ x ∈ g.history, x.beq b = .ok true) := by
  have hx : ∀ x ∈ g.history, ∃ r, x.beq b = .ok r := by
    intro x hx
    obtain ⟨_, h1⟩ := h.spec.history x hx
    obtain ⟨r, e, _⟩ := C07_eq h1.2 hb
    exact ⟨r, e⟩
  rw [historyContainsH_eq hl hx]
  exact historyContains_any hx

/-! ## The calls -/

theorem inv_beq {b : Goban} (hh : ∀ x ∈ g.history, Inv n x) (hb : Inv n b) : ∀ x ∈ g.history, ∃ r, x.beq b = .ok r := by
  intro x hx
  obtain ⟨r, e, _⟩ := beq_ok (hh x hx) hb
  exact ⟨r, e⟩

theorem playForVerificationW_eq {flags : FlagUInt} (hf : g.rule.flagIllegal = IllegalRules.ofBits flags) (p : Coord) :
    g.playForVerificationW dbg flags p = g.playForVerification dbg p := by
  unfold Game.playForVerificationW Game.playForVerification
  rw [(C95_contains flags).1.2.2.1, hf]

theorem checkSuperKoW_eq {look : Lookup} (hl : look.Complete) {flags : FlagUInt} (hf : g.rule.flagIllegal = IllegalRules.ofBits flags)
    (hI : Inv n g.goban) (hh : ∀ b ∈ g.history, Inv n b) {s : Stone} (hp : OnBoard n s.coord)
    (he : g.goban.getColor s.coord = .ok none) : g.checkSuperKoW dbg look flags s = g.checkSuperKo dbg s := by
  unfold Game.checkSuperKoW Game.checkSuperKo
  rw [playForVerificationW_eq hf]
  rcases playForVerification_stuck (dbg := dbg) hI hp he with ⟨b, e, hb, _⟩ | ⟨e, _⟩
  · simp only [e, ok_bind, historyContainsH_eq hl (inv_beq hh hb)]
  · simp only [e]
    rfl

theorem checkPointByW_eq {look : Lookup} (hl : look.Complete) {flags : FlagUInt} (hf : g.rule.flagIllegal = IllegalRules.ofBits flags)
    (hI : Inv n g.goban) (hh : ∀ b ∈ g.history, Inv n b) {p : Coord} (hp : OnBoard n p) (r : FlagUInt) :
    g.checkPointByW dbg look flags p r = g.checkPointBy dbg p (.ofBits r) := by
  obtain ⟨h1, h2, h3, h4⟩ := (C95_contains r).1
  unfold Game.checkPointByW Game.checkPointBy
  rw [h1, h2, h3, h4, hI.getColor_view hp, ok_bind, ok_bind]
  cases hv : g.goban.view p with
  | some c => rfl
  | none =>
    rw [checkSuperKoW_eq hl hf hI hh (s := { coord := p, color := g.turn }) hp (by rw [hI.getColor_view hp, hv])]

theorem playW_eq {look : Lookup} (hl : look.Complete) {flags : FlagUInt} (hf : g.rule.flagIllegal = IllegalRules.ofBits flags)
    (hI : Inv n g.goban) (hh : ∀ b ∈ g.history, Inv n b) (mv : Move) : g.playW dbg look flags mv = g.play dbg mv := by
  cases mv with
  | pass => rfl
  | resign c => rfl
  | play x y =>
    unfold Game.playW Game.play historyInsertH historyInsert Game.removeCapturedStonesW Game.removeCapturedStones
    rw [historyContainsH_eq hl (inv_beq hh hI), (C95_contains flags).1.2.2.1, ← hf]

/-- **C95**: `try_play` with the flags in words and the history as a hash set is `try_play`. -/
theorem C95_try_play {look : Lookup} (hl : look.Complete) {flags : FlagUInt} (h : Reach dbg n m g)
    (hf : g.rule.flagIllegal = IllegalRules.ofBits flags) {mv : Move} (hmv : mv.OnBoard n) :
    g.tryPlayW dbg look flags mv = g.tryPlay dbg mv := by
  have hI := h.inv
  have hh : ∀ b ∈ g.history, Inv n b := fun b hb => (h.spec.history b hb).choose_spec.2.inv.1
  unfold Game.tryPlayW Game.tryPlay
  cases mv with
  | pass => rfl
  | resign c => rfl
  | play x y =>
    dsimp only
    rw [playW_eq hl hf hI hh, checkPointByW_eq hl hf hI hh hmv, ← hf]
    rfl

/-- **C95**: `legals_by`. -/
theorem C95_legals {look : Lookup} (hl : look.Complete) {flags : FlagUInt} (h : Reach dbg n m g)
    (hf : g.rule.flagIllegal = IllegalRules.ofBits flags) (r : FlagUInt) :
    g.legalsByW dbg look flags r = g.legalsBy dbg (.ofBits r) := by
  have hI := h.inv
  have hh : ∀ b ∈ g.history, Inv n b := fun b hb => (h.spec.history b hb).choose_spec.2.inv.1
  obtain ⟨l, el, hmem⟩ := getEmptyCoords_any hI
  unfold Game.legalsByW Game.legalsBy Game.pseudoLegals
  rw [el, ok_bind, ok_bind]
  have : l.mapM (fun c => do let e ← g.checkPointByW dbg look flags c r; (.ok (if e.isNone then some c else none) : M _)) =
      l.mapM (fun c => do let e ← g.checkPointBy dbg c (.ofBits r); (.ok (if e.isNone then some c else none) : M _)) := by
    clear el
    induction l with
    | nil => rfl
    | cons a l ih =>
      rw [List.mapM_cons, List.mapM_cons, ih (fun p hp => hmem p (by simp [hp])), checkPointByW_eq hl hf hI hh (hmem a (by simp))]
  rw [this]

/-- **C95**: what the search considers legal. -/
theorem C95_search {look : Lookup} (hl : look.Complete) {flags : FlagUInt} (h : Reach dbg n m g)
    (hf : g.rule.flagIllegal = IllegalRules.ofBits flags) :
    g.searchLegalsW dbg look flags = g.legalsBy dbg { g.rule.flagIllegal with fillEye := true } := by
  unfold Game.searchLegalsW
  rw [C95_legals hl h hf, ((C95_operations flags IllegalRules.FILLEYE).1 _ _ rfl rfl).1, hf]
  simp only [show IllegalRules.ofBits IllegalRules.FILLEYE = ⟨false, false, false, true⟩ by decide, Bool.or_false, Bool.or_true]

/-- One call, with the flags in a word and the history as a hash set. -/
def Game.callW (dbg : Bool) (look : Lookup) (flags : FlagUInt) (g : Game) : GOp → M (Option PlayError × Game)
  | .try_ m => g.tryPlayW dbg look flags m
  | .resume => .ok (none, g.resume)
  | .setKomi k => .ok (none, g.setKomi k)

/-- A sequence of calls, with the flags in a word and the history as a hash set. -/
def Game.runW (dbg : Bool) (look : Lookup) (flags : FlagUInt) (g : Game) : List GOp → M (List (Option PlayError) × Game)
  | [] => .ok ([], g)
  | c :: cs => do
    let r ← g.callW dbg look flags c
    let rs ← r.2.runW dbg look flags cs
    .ok (r.1 :: rs.1, rs.2)

/-- **C95**: whole games. -/
theorem C95_run {look : Lookup} (hl : look.Complete) {flags : FlagUInt} : ∀ (cs : List GOp) {m : Nat} {g : Game}, Legal dbg n m g →
    g.rule.flagIllegal = IllegalRules.ofBits flags → (∀ c ∈ cs, c.OnBoard n) → g.runW dbg look flags cs = g.run dbg cs
  | [], _, _, _, _, _ => rfl
  | c :: cs, m, g, h, hf, hcs => by
    obtain ⟨m', _, hr⟩ := h.reach
    have e : g.callW dbg look flags c = g.call dbg c := by
      cases c with
      | try_ mv => exact C95_try_play hl hr hf (hcs (.try_ mv) (by simp))
      | resume => rfl
      | setKomi k => rfl
    unfold Game.runW Game.run
    rw [e]
    cases e1 : g.call dbg c with
    | error x => rfl
    | ok r =>
      rw [ok_bind, ok_bind]
      have hl' : (∃ m1, Legal dbg n m1 r.2) ∧ r.2.rule.flagIllegal = g.rule.flagIllegal := by
        cases c with
        | try_ mv => exact ⟨⟨_, .tryPlay h (hcs (.try_ mv) (by simp)) e1⟩, by rw [tryPlay_rule e1]⟩
        | resume => cases e1; exact ⟨⟨_, .resume h⟩, rfl⟩
        | setKomi k => cases e1; exact ⟨⟨_, .setKomi h⟩, rfl⟩
      obtain ⟨⟨m1, h1⟩, h2⟩ := hl'
      rw [C95_run hl cs h1 (by rw [h2]; exact hf) (fun c hc => hcs c (by simp [hc]))]

/-- **C95**: `calculate_score_by`, for every game and every word. -/
theorem C95_score (ord : List Point → List Point) (r : FlagUInt) :
    g.calculateScoreByW dbg ord r = g.calculateScoreBy dbg ord (.ofBits r) := by
  obtain ⟨h1, h2, h3⟩ := (C95_contains r).2
  unfold Game.calculateScoreByW Game.calculateScoreBy
  rw [h1, h2, h3]

/-! ## Concrete cases -/

/-- A table of eight buckets, latest entries first. -/
def eightBuckets : Lookup := fun h g => (h.filter (fun x => decide (x.hashValue.toNat % 8 = g.hashValue.toNat % 8))).reverse

theorem eightBuckets_complete : eightBuckets.Complete := by
  intro h g
  unfold eightBuckets
  constructor
  · intro x hx
    rw [List.mem_reverse] at hx
    exact (List.mem_filter.1 hx).1
  · intro x hx he
    rw [List.mem_reverse, List.mem_filter]
    exact ⟨hx, by rw [he]; simp⟩

/-- A ko is taken, both pass, the game is resumed, and the ko is retaken: the point is no longer forbidden by ko, but the board after
it is in the history. -/
def exAgain : List GOp := exKo ++ [.try_ .pass, .try_ .pass, .resume, .try_ (.play 1 1)]

/-- Non-vacuity of `C95_run`: with eight buckets the last move is refused, as it is in the main model. -/
example : ∃ g0, Legal true 4 0 g0 ∧ g0.rule.flagIllegal = IllegalRules.ofBits chineseIllegal ∧ (∀ c ∈ exAgain, c.OnBoard 4) ∧
    okAnd (g0.runW true eightBuckets chineseIllegal exAgain) (fun r => decide (r.1.getLast? = some (some .ko))) = true := by
  obtain ⟨g, h, e⟩ := mkGame_exists (dbg := true) (n := 4) (rule := CHINESE) (l := []) (f := fun g =>
      decide (g.rule.flagIllegal = IllegalRules.ofBits chineseIllegal) &&
      okAnd (g.runW true eightBuckets chineseIllegal exAgain) (fun r => decide (r.1.getLast? = some (some .ko))))
    (by decide) (by decide +kernel)
  rw [Bool.and_eq_true, decide_eq_true_eq] at e
  exact ⟨g, h, e.1, by decide, e.2⟩

/-- A lookup that misses entries with the hash sought is not enough: the move is accepted. -/
theorem C95_complete_needed : ∃ g0, Legal true 4 0 g0 ∧ g0.rule.flagIllegal = IllegalRules.ofBits chineseIllegal ∧
    okAnd (g0.runW true (fun _ _ => []) chineseIllegal exAgain) (fun r => decide (r.1.getLast? = some none)) = true := by
  obtain ⟨g, h, e⟩ := mkGame_exists (dbg := true) (n := 4) (rule := CHINESE) (l := []) (f := fun g =>
      decide (g.rule.flagIllegal = IllegalRules.ofBits chineseIllegal) &&
      okAnd (g.runW true (fun _ _ => []) chineseIllegal exAgain) (fun r => decide (r.1.getLast? = some none)))
    (by decide) (by decide +kernel)
  rw [Bool.and_eq_true, decide_eq_true_eq] at e
  exact ⟨g, h, e.1, e.2⟩

end Model
