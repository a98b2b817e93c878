import Verif.Props.Abstract
import Verif.Props.Score
/-!
# Area counting, territory counting and komi: C59, C60, C64
-/

namespace Model
open Spec (OnBoard Adj Linked HasLiberty NoDead place SameOn Pos Suicide State)

variable {dbg : Bool} {n m : Nat} {g : Game}

/-! ## C59 -/

/-- Territory plus stones on the board, komi if `k`. -/
def areaFlags (k : Bool) : ScoreRules := { stones := true, komi := k, prisonners := false }

/-- Territory plus prisoners, komi if `k`. -/
def territoryFlags (k : Bool) : ScoreRules := { stones := false, komi := k, prisonners := true }

/-- **C59**. The lead of Black by area exceeds the lead of Black by territory by exactly the black stones put minus the white
stones put, setup included (`b`, `w` are the stones played since the start `g0`). The komi is a half-integer below 2^20 and each
side has put fewer than 2^20 stones, so that `f32` is exact. -/
theorem C59_area_territory {g0 : Game} {m0 b w : Nat} (hf : Fresh dbg n m0 g0) (h : Plays dbg n g0 b w g) {k : Bool} {K : Int}
    (hk : k = true → g.rule.komi = .fin ((K : Rat) / 2)) (hK : K.natAbs < 2 ^ 21)
    (hb : g0.goban.numberOfStones.1 + b < 2 ^ 20) (hw : g0.goban.numberOfStones.2 + w < 2 ^ 20)
    {ord ord' : List Point → List Point} (hord : ∀ l, (ord l).Perm l) (hord' : ∀ l, (ord' l).Perm l) :
    ∃ ba wa bt wt : Rat, g.calculateScoreBy dbg ord (areaFlags k) = .ok (.fin ba, .fin wa) ∧
      g.calculateScoreBy dbg ord' (territoryFlags k) = .ok (.fin bt, .fin wt) ∧
      (ba - wa) - (bt - wt) = ((g0.goban.numberOfStones.1 + b : Nat) : Rat) - ((g0.goban.numberOfStones.2 + w : Nat) : Rat) := by
  obtain ⟨c1, c2⟩ := C11_conservation hf h
  obtain ⟨m, hr⟩ := h.reach hf
  have hx : ∀ f : ScoreRules, f.komi = k → Exact g f K := fun f e => ⟨fun h => hk (by rw [← e]; exact h), hK, fun _ => by omega, fun _ => by omega⟩
  refine ⟨_, _, _, _, C21_calculate_score_by hr (hx _ rfl) hord, C21_calculate_score_by hr (hx _ rfl) hord', ?_⟩
  rw [numberOfStones_ok hr.inv] at c1 c2
  dsimp only at c1 c2
  rw [← c1, ← c2]
  unfold blackPoints whitePoints areaFlags territoryFlags
  simp only [Bool.false_eq_true, if_true, if_false, Nat.add_zero, Rat.natCast_add]
  cases k <;> simp only [Bool.false_eq_true, if_true, if_false] <;> grind

/-- Non-vacuity of C59: Black played four stones and White three; Black leads by 9 by area and by 8 by territory. -/
example : ∃ g, Legal true 3 9 g ∧ (okAnd (g.calculateScoreBy true id (areaFlags false)) (fun s => s == (.fin 9, .fin 0)) &&
    okAnd (g.calculateScoreBy true id (territoryFlags false)) (fun s => s == (.fin 8, .fin 0)) &&
    g.prisoners == (3, 0) && g.goban.numberOfStones == (4, 0)) = true :=
  mkGame_exists (rule := JAPANESE) (l := exScored) (by decide) (by decide +kernel)

/-! ## C60 -/

open Classical in
/-- The number of empty points that are nobody's territory. -/
noncomputable def neutral (n : Dim) (pos : Pos) : Nat :=
  ((Spec.points n).filter (fun p => decide (pos p = none ∧ ¬ Spec.Territory n pos .black p ∧ ¬ Spec.Territory n pos .white p))).length

theorem area_total {n : Dim} (pos : Pos) : Spec.territorySize n pos .black + Spec.territorySize n pos .white +
    Spec.count n pos (some .black) + Spec.count n pos (some .white) + neutral n pos = n.area := by
  classical
  rw [← points_length n]
  unfold Spec.territorySize Spec.count neutral
  induction Spec.points n with
  | nil => rfl
  | cons p l ih =>
    simp only [List.filter_cons, decide_eq_true_eq, List.length_cons]
    have hbw : Spec.Territory n pos .black p → ¬ Spec.Territory n pos .white p := fun h h' => h.2.2.2 h'.2.2.1
    have h0 : ∀ c, Spec.Territory n pos c p → pos p = none := fun c h => h.2.1
    rcases hp : pos p with _ | c
    · by_cases hb : Spec.Territory n pos .black p
      · rw [if_pos hb, if_neg (hbw hb), if_neg (by simp), if_neg (by simp), if_neg (fun h => h.2.1 hb), List.length_cons]
        omega
      · by_cases hw : Spec.Territory n pos .white p
        · rw [if_neg hb, if_pos hw, if_neg (by simp), if_neg (by simp), if_neg (fun h => h.2.2 hw), List.length_cons]
          omega
        · rw [if_neg hb, if_neg hw, if_neg (by simp), if_neg (by simp), if_pos ⟨rfl, hb, hw⟩, List.length_cons]
          omega
    · have hb : ¬ Spec.Territory n pos .black p := fun h => by have := h0 _ h; rw [hp] at this; cases this
      have hw : ¬ Spec.Territory n pos .white p := fun h => by have := h0 _ h; rw [hp] at this; cases this
      have hn : ¬ (some c = none ∧ ¬ Spec.Territory n pos .black p ∧ ¬ Spec.Territory n pos .white p) := fun h => by cases h.1
      rw [if_neg hb, if_neg hw, if_neg hn]
      cases c
      · rw [if_pos rfl, if_neg (by simp), List.length_cons]
        omega
      · rw [if_neg (by simp), if_pos rfl, List.length_cons]
        omega

/-- **C60**. Area counting without komi shares out the points of the board: the two scores add up to `n²` less the empty points
that are nobody's territory. -/
theorem C60_area_total {f : ScoreRules} (h : Reach dbg n m g) (hs : f.stones = true) (hp : f.prisonners = false) (hk : f.komi = false)
    {ord : List Point → List Point} (hord : ∀ l, (ord l).Perm l) :
    ∃ b w : Nat, g.calculateScoreBy dbg ord f = .ok (.fin b, .fin w) ∧ b + w + neutral n g.goban.view = n * n := by
  have hx : Exact g f 0 :=
    ⟨fun h => absurd (hk ▸ h) (by decide), by decide, fun h => absurd (hp ▸ h) (by decide), fun h => absurd (hp ▸ h) (by decide)⟩
  refine ⟨blackPoints n g f, whitePoints n g f, ?_, ?_⟩
  · rw [C21_calculate_score_by h hx hord, hk]
    simp only [Bool.false_eq_true, if_false]
    congr 3
    grind
  · unfold blackPoints whitePoints
    rw [hs, hp]
    simp only [Bool.false_eq_true, if_true, if_false]
    have : _ = n * n := area_total (n := n) g.goban.view
    omega

/-- Non-vacuity of C60: three stones each, one point of territory each, and one neutral point. -/
example : ∃ g, Legal true 3 6 g ∧ (okAnd (g.calculateScoreBy true id (areaFlags false)) (fun s => s == (.fin 4, .fin 4)) &&
    okAnd (g.goban.getEmptyCoords) (fun l => l.length == 3)) = true :=
  mkGame_exists (rule := JAPANESE) (l := [.try_ (.play 0 1), .try_ (.play 1 2), .try_ (.play 1 0), .try_ (.play 2 1),
    .try_ (.play 2 0), .try_ (.play 1 1)]) (by decide) (by decide +kernel)

/-! ## C64 -/

/-- The komi of the last `set_komi` of a sequence of calls. -/
def lastKomi : List GOp → Option F32
  | [] => none
  | .setKomi k :: cs => (lastKomi cs).or (some k)
  | _ :: cs => lastKomi cs

theorem play_rule {mv : Move} {g' : Game} (e : g.play dbg mv = .ok g') : g'.rule = g.rule := by
  cases mv with
  | pass =>
    obtain ⟨_, _, e⟩ := bind_eq_ok e
    cases e; rfl
  | resign c => cases e; rfl
  | play x y =>
    obtain ⟨_, _, e⟩ := bind_eq_ok e
    obtain ⟨_, _, e⟩ := bind_eq_ok e
    obtain ⟨g1, e1, e⟩ := bind_eq_ok e
    cases e
    obtain ⟨_, _, e⟩ := bind_eq_ok e1
    cases e; rfl

theorem tryPlay_rule {mv : Move} {r : Option PlayError × Game} (e : g.tryPlay dbg mv = .ok r) : r.2.rule = g.rule := by
  unfold Game.tryPlay at e
  split at e
  · cases e; rfl
  · cases mv with
    | pass => obtain ⟨_, e1, e⟩ := bind_eq_ok e; cases e; exact play_rule e1
    | resign c => obtain ⟨_, e1, e⟩ := bind_eq_ok e; cases e; exact play_rule e1
    | play x y =>
      obtain ⟨_, _, e⟩ := bind_eq_ok e
      split at e
      · cases e; rfl
      · obtain ⟨a, _, e⟩ := bind_eq_ok e
        cases a with
        | some _ => cases e; rfl
        | none => obtain ⟨_, e1, e⟩ := bind_eq_ok e; cases e; exact play_rule e1

/-- **C64**. After any calls, in any state, the rule is the one the game had, with the komi set last. -/
theorem C64_last_komi : ∀ (cs : List GOp) {g g' : Game} {es : List (Option PlayError)}, g.run dbg cs = .ok (es, g') →
    g'.rule = { g.rule with komi := (lastKomi cs).getD g.rule.komi }
  | [], g, g', es, e => by cases e; rfl
  | c :: cs, g, g', es, e => by
    unfold Game.run at e
    obtain ⟨⟨x, g1⟩, e1, e⟩ := bind_eq_ok e
    obtain ⟨⟨xs, g2⟩, e2, e⟩ := bind_eq_ok e
    cases e
    have ih := C64_last_komi cs e2
    cases c with
    | try_ mv =>
      have : g1.rule = g.rule := tryPlay_rule e1
      rw [ih, this]; rfl
    | resume => cases e1; exact ih
    | setKomi k =>
      cases e1
      have hl : lastKomi (.setKomi k :: cs) = (lastKomi cs).or (some k) := rfl
      rw [ih, hl]
      cases lastKomi cs <;> rfl

/-- **C64**. Setting the komi changes nothing but the score of White, which counts the new komi. -/
theorem C64_score {f : ScoreRules} {K : Int} (h : Reach dbg n m g) (hf : f.komi = true) (hK : K.natAbs < 2 ^ 21)
    (hp : f.prisonners = true → g.prisoners.1 < 2 ^ 20 ∧ g.prisoners.2 < 2 ^ 20)
    {ord : List Point → List Point} (hord : ∀ l, (ord l).Perm l) {r : Option PlayError × Game}
    (e : g.call dbg (.setKomi (.fin ((K : Rat) / 2))) = .ok r) :
    r.2 = { g with rule := r.2.rule } ∧ ∃ b w : Nat,
      g.calculateScoreBy dbg ord { f with komi := false } = .ok (.fin b, .fin w) ∧
      r.2.calculateScoreBy dbg ord f = .ok (.fin b, .fin ((w : Rat) + (K : Rat) / 2)) := by
  cases e
  refine ⟨rfl, blackPoints n g f, whitePoints n g f, ?_, ?_⟩
  · have hx : Exact g { f with komi := false } 0 :=
      ⟨fun h => absurd h Bool.false_ne_true, by decide, fun h => (hp h).1, fun h => (hp h).2⟩
    rw [C21_calculate_score_by h hx hord]
    simp only [Bool.false_eq_true, if_false]
    show Except.ok (F32.fin _, F32.fin ((whitePoints n g f : Rat) + 0)) = _
    congr 3
    grind
  · have hx : Exact (g.setKomi (.fin ((K : Rat) / 2))) f K := ⟨fun _ => rfl, hK, fun h => (hp h).1, fun h => (hp h).2⟩
    rw [C21_calculate_score_by (.setKomi h) hx hord, hf]
    rfl

/-- Non-vacuity of C64: the komi is set twice, with moves in between. -/
example : ∃ g, Legal true 3 3 g ∧ (g.rule.komi == .fin (1 / 2) &&
    okAnd (g.calculateScoreBy true id (areaFlags true)) (fun s => s == (.fin 1, .fin (3 / 2)))) = true :=
  mkGame_exists (rule := JAPANESE) (l := [.setKomi (.fin 5), .try_ (.play 0 1), .setKomi (.fin (1 / 2)), .try_ (.play 1 2),
    .try_ .pass]) (by decide) (by decide +kernel)

end Model
