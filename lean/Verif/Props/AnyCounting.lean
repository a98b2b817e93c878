import Verif.Props.AnyTerritory
import Verif.Props.Counting
/-!
# C55, C59 and C64 on boards of every size
-/

namespace Model

variable {dbg : Bool} {s : Size} {b w : Nat} {g : Game}

/-- The numbers of points of territory do not depend on the order in which the sets are visited, nor on the build. -/
theorem AnyGame.counted (h : AnyGame dbg s b w g) : ∃ tb tw, tb ≤ 2 ^ 18 ∧ tw ≤ 2 ^ 18 ∧
    ∀ {ord : List Point → List Point} (_ : ∀ l, (ord l).Perm l) (dbg' : Bool),
      g.goban.calculateTerritories dbg' ord = .ok (tb, tw) := by
  have hv := h.rep.1.cells
  obtain ⟨T, _, hT, hl⟩ := h.rep.1.territories (dbg := true) h.rep.2 h.small hv (ord := id) (fun l => .refl l)
  refine ⟨_, _, hl .black, hl .white, fun {ord} hord dbg' => ?_⟩
  obtain ⟨T', e, hT', _⟩ := h.rep.1.territories (dbg := dbg') h.rep.2 h.small hv hord
  have hp : ∀ c, (T' c).length = (T c).length := by
    intro c
    refine (List.perm_iff_count.2 ?_).length_eq
    rintro ⟨p, _ | x⟩
    · rw [(hT c).2, (hT' c).2]
    · rw [List.count_eq_zero_of_not_mem (fun hm => by cases (hT' c).1 _ hm),
        List.count_eq_zero_of_not_mem (fun hm => by cases (hT c).1 _ hm)]
  unfold Goban.calculateTerritories
  rw [e, ok_bind]
  show Except.ok ((T' .black).length, (T' .white).length) = _
  rw [hp, hp]

/-- **C59**, every size. Whatever is listed as territory, the lead of Black by area exceeds the lead of Black by territory by exactly
the black stones put minus the white stones put (`b` and `w`, handicap and setup included). -/
theorem C59_any_size (h : AnyGame dbg s b w g) {k : Bool} {K : Int} (hk : k = true → g.rule.komi = .fin ((K : Rat) / 2))
    (hK : K.natAbs < 2 ^ 21) (hb : b < 2 ^ 20) (hw : w < 2 ^ 20) {ord ord' : List Point → List Point}
    (hord : ∀ l, (ord l).Perm l) (hord' : ∀ l, (ord' l).Perm l) (dbg' : Bool) :
    ∃ ba wa bt wt : Rat, g.calculateScoreBy dbg' ord (areaFlags k) = .ok (.fin ba, .fin wa) ∧
      g.calculateScoreBy dbg' ord' (territoryFlags k) = .ok (.fin bt, .fin wt) ∧ (ba - wa) - (bt - wt) = (b : Rat) - (w : Rat) := by
  have hv := h.rep.1.cells
  obtain ⟨c1, c2⟩ := C98_count h hv
  have hx : ∀ f : ScoreRules, f.komi = k → Exact g f K := fun f e => ⟨fun h => hk (by rw [← e]; exact h), hK, fun _ => by omega, fun _ => by omega⟩
  obtain ⟨tb, tw, et, ea⟩ := C100_exact_score h hv (hx (areaFlags k) rfl) hord dbg'
  obtain ⟨tb', tw', et', eb⟩ := C100_exact_score h hv (hx (territoryFlags k) rfl) hord' dbg'
  obtain ⟨ub, uw, _, _, hu⟩ := h.counted
  rw [hu hord] at et
  rw [hu hord'] at et'
  cases et; cases et'
  refine ⟨_, _, _, _, ea, eb, ?_⟩
  rw [← c1, ← c2]
  unfold areaFlags territoryFlags
  simp only [Bool.false_eq_true, if_true, if_false, Nat.add_zero, Rat.natCast_add]
  cases k <;> simp only [Bool.false_eq_true, if_true, if_false] <;> grind

/-- **C64**, every size and every komi. `set_komi` changes nothing but the komi; Black's score counted with the new komi is the one
counted without, and White's is the one counted without plus the komi: that sum rounded if the komi is finite, the komi itself if
it is infinite or not a number. -/
theorem C64_any_size {f : ScoreRules} {k : F32} (h : AnyGame dbg s b w g) (hf : f.komi = true)
    (hks : ∀ v, k = .fin v → Spec.Single v) {ord : List Point → List Point} (hord : ∀ l, (ord l).Perm l) (dbg' : Bool)
    {r : Option PlayError × Game} (e : g.call dbg (.setKomi k) = .ok r) :
    r.2 = { g with rule := { g.rule with komi := k } } ∧ ∃ (x y : Nat) (z : F32),
      g.calculateScoreBy dbg' ord { f with komi := false } = .ok (.fin x, .fin y) ∧
      r.2.calculateScoreBy dbg' ord f = .ok (.fin x, z) ∧
      (∀ v, k = .fin v → ∃ q, z = .fin q ∧ Spec.Rounded ((y : Rat) + v) q) ∧
      ((∀ v, k ≠ .fin v) → z = k) := by
  cases e
  refine ⟨rfl, ?_⟩
  obtain ⟨tb, tw, hb, hw, hu⟩ := h.counted
  have ht := h.tally h.rep.1.cells
  obtain ⟨pb, x, hpb, _, hxl, ex⟩ := side_sum hb ht.byBlack ht.black f
  obtain ⟨pw, y, hpw, _, hyl, ey⟩ := side_sum hw ht.byWhite ht.white f
  have e1 : g.calculateScoreBy dbg' ord { f with komi := false } = .ok (.fin x, .fin y) := by
    unfold Game.calculateScoreBy
    rw [hu hord, ok_bind, ht.stones]
    dsimp only
    rw [← ex, ← ey]
    cases f.prisonners <;> cases f.stones <;> rfl
  have e2 : (g.setKomi k).calculateScoreBy dbg' ord f = .ok (.fin x, (F32.fin y).add k) := by
    unfold Game.calculateScoreBy
    show (g.goban.calculateTerritories dbg' ord >>= _) = _
    rw [hu hord, ok_bind]
    have : (g.setKomi k).goban.numberOfStones = _ := ht.stones
    rw [this]
    dsimp only
    rw [← ex, ← ey, hf]
    cases f.prisonners <;> cases f.stones <;> rfl
  refine ⟨x, y, _, e1, e2, ?_, ?_⟩
  · rintro v rfl
    exact sum_rounded (by omega) (hks v rfl)
  · intro hk
    match k with
    | .fin v => exact absurd rfl (hk v)
    | .inf t => rfl
    | .nan => rfl

/-- **C64**, every size, exact: with a komi that is a multiple of a half below 2^20 and fewer than 2^20 prisoners, if they count, the
sum is not rounded. -/
theorem C64_any_size_exact {f : ScoreRules} {K : Int} (h : AnyGame dbg s b w g) (hf : f.komi = true) (hK : K.natAbs < 2 ^ 21)
    (hp : f.prisonners = true → g.prisoners.1 < 2 ^ 20 ∧ g.prisoners.2 < 2 ^ 20)
    {ord : List Point → List Point} (hord : ∀ l, (ord l).Perm l) (dbg' : Bool) {r : Option PlayError × Game}
    (e : g.call dbg (.setKomi (.fin ((K : Rat) / 2))) = .ok r) :
    ∃ x y : Nat, g.calculateScoreBy dbg' ord { f with komi := false } = .ok (.fin x, .fin y) ∧
      r.2.calculateScoreBy dbg' ord f = .ok (.fin x, .fin ((y : Rat) + (K : Rat) / 2)) := by
  cases e
  have hv := h.rep.1.cells
  have hx : Exact g { f with komi := false } 0 :=
    ⟨fun h => absurd h Bool.false_ne_true, by decide, fun h => (hp h).1, fun h => (hp h).2⟩
  have hx' : Exact (g.setKomi (.fin ((K : Rat) / 2))) f K := ⟨fun _ => rfl, hK, fun h => (hp h).1, fun h => (hp h).2⟩
  obtain ⟨tb, tw, _, _, hu⟩ := h.counted
  obtain ⟨tb', tw', et, ea⟩ := C100_exact_score h hv hx hord dbg'
  obtain ⟨tb'', tw'', et', eb⟩ := C100_exact_score (g := g.setKomi (.fin ((K : Rat) / 2))) (.setKomi h) hv hx' hord dbg'
  have et2 : g.goban.calculateTerritories dbg' ord = .ok (tb'', tw'') := et'
  rw [hu hord] at et et2
  cases et; cases et2
  refine ⟨tb + (if f.prisonners then g.prisoners.1 else 0) + (if f.stones then
      (List.map g.goban.col (List.range 361)).count (some .black) else 0),
    tw + (if f.prisonners then g.prisoners.2 else 0) + (if f.stones then
      (List.map g.goban.col (List.range 361)).count (some .white) else 0), ?_, ?_⟩
  · rw [ea]
    simp only [Bool.false_eq_true, if_false]
    rw [Rat.add_zero]
  · show (g.setKomi _).calculateScoreBy dbg' ord f = _
    rw [eb, hf]
    rfl

/-- **C55**, every size, exact: in the range in which nothing is rounded the winner is the side with the larger score, and there is
none iff the scores are equal. -/
theorem C55_winner_any_exact {K : Int} (h : AnyGame dbg s b w g) (ho : g.outcome = none) (hp : 2 ≤ g.passes)
    (hx : Exact g g.rule.flagScore K) {ord : List Point → List Point} (hord : ∀ l, (ord l).Perm l) (dbg' : Bool) :
    ∃ (x y : Rat) (e : EndGame), g.calculateScore dbg' ord = .ok (.fin x, .fin y) ∧ g.getOutcome dbg' ord = .ok (some e) ∧
      (e.getWinner = some .black ↔ y < x) ∧ (e.getWinner = some .white ↔ x < y) ∧ (e.getWinner = none ↔ x = y) := by
  obtain ⟨x, y, hs, hd, hb, hw⟩ := C100_two_passes h ho hp hx hord dbg'
  by_cases hxy : x = y
  · exact ⟨x, y, _, hs, hd hxy, by simp [EndGame.getWinner, hxy], by simp [EndGame.getWinner, hxy], by simp [EndGame.getWinner, hxy]⟩
  · by_cases hlt : x < y
    · refine ⟨x, y, _, hs, hw hlt, ?_, ?_, ?_⟩ <;> simp [EndGame.getWinner] <;> grind
    · refine ⟨x, y, _, hs, hb (by grind), ?_, ?_, ?_⟩ <;> simp [EndGame.getWinner] <;> grind

/-- On a 2 × 3 board, after one black stone, the lead by area is that by territory and one; the komi set is added to White's score;
the winner is named, in both builds. -/
example (dbg : Bool) : ∃ b w g, AnyGame dbg (2, 3) b w g ∧ (
    g.calculateScoreBy dbg id (areaFlags false) = .ok (.fin 18, .fin 0) ∧
    g.calculateScoreBy dbg id (territoryFlags false) = .ok (.fin 17, .fin 0) ∧
    (g.setKomi (.fin 20)).calculateScoreBy dbg id (areaFlags true) = .ok (.fin 18, .fin 20) ∧
    (g.setKomi (.inf true)).calculateScoreBy dbg id (areaFlags true) = .ok (.fin 18, .inf true) ∧
    okAnd (g.getOutcome dbg id) (fun e => e.map EndGame.getWinner = some (some .black)) : Bool) = true :=
  anyGame_exists (size := .custom 2 3) (rule := JAPANESE) (l := [.play 0 0, .pass, .pass]) (by cases dbg <;> decide +kernel)

end Model
