import Verif.Proofs.Area
import Verif.Props.Counting
/-!
# What a stone does to the score: C112
-/

namespace Model
open Spec (OnBoard Adj Linked HasLiberty NoDead place SameOn Pos Suicide State Territory)

variable {dbg : Bool} {n m : Nat} {g g' : Game}

/-- The entry of `c` in a pair that has Black's first. -/
def _root_.Spec.of {α : Type} (c : Color) (s : α × α) : α := match c with
  | .black => s.1
  | .white => s.2

open Spec (of)

/-- `calculate_score_by` with the flags `f` answers `s`. -/
def Scores (dbg : Bool) (ord : List Point → List Point) (g : Game) (f : ScoreRules) (s : Rat × Rat) : Prop :=
  g.calculateScoreBy dbg ord f = .ok (.fin s.1, .fin s.2)

theorem vanished_place {n : Dim} {pos pos' : Pos} {p : Coord} {c : Color} (he : pos p = none) :
    Spec.vanished n (place pos p c) pos' c.opp = Spec.vanished n pos pos' c.opp := by
  unfold Spec.vanished
  congr 1
  apply List.filter_congr
  intro q _
  rw [decide_eq_decide]
  by_cases hq : q = p
  · subst hq; rw [place_self, he]; simp
  · rw [place_ne hq]

/-- Stones and prisoners around a move, `a` the opposing stones that vanish and `b` the own ones (the new one included). -/
theorem move_counts (h : Reach dbg n m g) {x y : Nat} (hp : OnBoard n (x, y)) (he : g.goban.getColor (x, y) = .ok none)
    (e : g.play dbg (.play x y) = .ok g') :
    let a := Spec.vanished n g.goban.view g'.goban.view g.turn.opp
    let b := Spec.vanished n (place g.goban.view (x, y) g.turn) g'.goban.view g.turn
    Spec.count n g.goban.view (some g.turn.opp) = Spec.count n g'.goban.view (some g.turn.opp) + a ∧
    Spec.count n g.goban.view (some g.turn) + 1 = Spec.count n g'.goban.view (some g.turn) + b ∧
    of g.turn g'.prisoners = of g.turn g.prisoners + a ∧ of g.turn.opp g'.prisoners = of g.turn.opp g.prisoners + b := by
  have hv := (C09_play_local h hp he).of_ok e
  have hc := (C11_play h hp he).of_ok e
  have h0 := (getColor_none h.inv hp).1 he
  have k1 := count_place (c := g.turn) hp h0 g.turn
  have k2 := count_place (c := g.turn) hp h0 g.turn.opp
  have kv := fun d => count_vanished (n := n) (a := place g.goban.view (x, y) g.turn) (b := g'.goban.view)
      (fun q hq => by rw [hv q hq]; exact playLocal_sub q) d
  have v1 := kv g.turn
  have v2 := kv g.turn.opp
  rw [k1, if_pos rfl] at v1
  rw [k2, if_neg (fun h => Color.ne_opp g.turn h.symm), vanished_place h0] at v2
  dsimp only
  refine ⟨v2, v1, ?_⟩
  have hx := vanished_place (n := n) (pos' := g'.goban.view) (c := g.turn) h0
  revert hx hc
  cases g.turn with
  | black => intro hc hx; rw [← hx]; exact hc
  | white => intro hc hx; rw [← hx]; exact hc.symm

/-- The points of `c` without komi. -/
noncomputable def pointsOf (n : Dim) (g : Game) (f : ScoreRules) (c : Color) : Nat :=
  Spec.territorySize n g.goban.view c + (if f.prisonners then of c g.prisoners else 0) +
    (if f.stones then Spec.count n g.goban.view (some c) else 0)

theorem scores_exact {f : ScoreRules} {K : Int} (h : Reach dbg n m g) (hx : Exact g f K) {ord : List Point → List Point}
    (hord : ∀ l, (ord l).Perm l) : ∃ s, Scores dbg ord g f s ∧
      ∀ c, of c s = (pointsOf n g f c : Rat) + of c (0, if f.komi then (K : Rat) / 2 else 0) := by
  refine ⟨(blackPoints n g f, (whitePoints n g f : Rat) + (if f.komi then (K : Rat) / 2 else 0)), C21_calculate_score_by h hx hord, ?_⟩
  intro c
  cases c with
  | black => show (blackPoints n g f : Rat) = (blackPoints n g f : Rat) + 0; grind
  | white => rfl

/-- What the move does to the territory, from what it does to the area. -/
theorem stays_points (h : Reach dbg n m g) {x y : Nat} (hp : OnBoard n (x, y)) (he : g.goban.getColor (x, y) = .ok none)
    (e : g.play dbg (.play x y) = .ok g') (hs : g'.goban.getColor (x, y) = .ok (some g.turn)) :
    ∃ t, t = Spec.vanished n g.goban.view g'.goban.view g.turn.opp ∧
      Spec.vanished n (place g.goban.view (x, y) g.turn) g'.goban.view g.turn = 0 ∧
      (Territory n g.goban.view g.turn (x, y) → t = 0 ∧ ∀ d, Spec.area n g'.goban.view d = Spec.area n g.goban.view d) ∧
      (¬ Territory n g.goban.view g.turn (x, y) → Spec.area n g.goban.view g.turn + t + 1 ≤ Spec.area n g'.goban.view g.turn) ∧
      Spec.area n g'.goban.view g.turn.opp + t ≤ Spec.area n g.goban.view g.turn.opp := by
  have h0 := (getColor_none h.inv hp).1 he
  have hv := (C09_play_local h hp he).of_ok e
  have hr' : Reach dbg n (m + 1) g' := .play h hp he e
  have hsp : g'.goban.view (x, y) = some g.turn := by
    rw [hr'.inv.getColor_view hp] at hs
    exact Except.ok.inj hs
  have hv' : SameOn n g'.goban.view (Spec.playLocal n false g.goban.view (x, y) g.turn) := by
    cases hf : (!g.rule.flagIllegal.suicide)
    · rw [hf] at hv; exact hv
    · rw [hf] at hv
      have hns : ¬ Spec.SuicideLocal n g.goban.view (x, y) g.turn := by
        intro hsu
        have := hv _ hp
        rw [hsp, suicide_group hsu (.refl _)] at this
        cases this
      rw [playLocal_eq true hns] at hv
      exact hv
  refine ⟨_, rfl, ?_, ?_, ?_, ?_⟩
  · unfold Spec.vanished
    rw [List.length_eq_zero_iff, List.filter_eq_nil_iff]
    intro q hq hh
    obtain ⟨h1, h2⟩ := of_decide_eq_true hh
    rw [hv' q (mem_points.1 hq), playLocal_keep (by rw [h1]; exact some_ne_opp), h1] at h2
    cases h2
  · intro ht
    constructor
    · unfold Spec.vanished
      rw [List.length_eq_zero_iff, List.filter_eq_nil_iff]
      intro q hq hh
      obtain ⟨h1, h2⟩ := of_decide_eq_true hh
      have hqp : q ≠ (x, y) := by rintro rfl; rw [h0] at h1; cases h1
      rw [hv' q (mem_points.1 hq), territory_no_capture h0 ht hqp, h1] at h2
      cases h2
    · intro d
      rw [area_congr hv' d, area_territory h0 hp ht d]
  · intro ht
    rw [area_congr hv' g.turn, vanished_congr (fun _ _ => rfl) hv']
    exact area_gain h0 hp ht
  · rw [area_congr hv' g.turn.opp, vanished_congr (fun _ _ => rfl) hv']
    exact area_loss h0 hp

theorem exact_area {K : Int} {k : Bool} (hk : k = true → g.rule.komi = .fin ((K : Rat) / 2)) (hK : K.natAbs < 2 ^ 21) :
    Exact g (areaFlags k) K := ⟨hk, hK, fun h => (by cases h), fun h => (by cases h)⟩

theorem exact_territory {K : Int} {k : Bool} (hk : k = true → g.rule.komi = .fin ((K : Rat) / 2)) (hK : K.natAbs < 2 ^ 21)
    (h1 : g.prisoners.1 < 2 ^ 20) (h2 : g.prisoners.2 < 2 ^ 20) : Exact g (territoryFlags k) K := ⟨hk, hK, fun _ => h1, fun _ => h2⟩

theorem points_area (k : Bool) (c : Color) : pointsOf n g (areaFlags k) c = Spec.area n g.goban.view c := by
  rw [area_eq]
  unfold pointsOf areaFlags
  simp only [Bool.false_eq_true, if_true, if_false]
  omega

theorem points_territory (k : Bool) (c : Color) :
    pointsOf n g (territoryFlags k) c + Spec.count n g.goban.view (some c) = Spec.area n g.goban.view c + of c g.prisoners := by
  rw [area_eq]
  unfold pointsOf territoryFlags
  simp only [Bool.false_eq_true, if_true, if_false]
  omega

/-- **C112**, counting by area. A stone that stays on the board, `t` opposing stones being captured: on a point of own territory it
captures nothing and changes neither score; anywhere else the player gains at least `t + 1` points. The opponent loses at least
`t` points, and never gains any. -/
theorem C112_area (h : Reach dbg n m g) {x y : Nat} (hp : OnBoard n (x, y)) (he : g.goban.getColor (x, y) = .ok none)
    (e : g.play dbg (.play x y) = .ok g') (hs : g'.goban.getColor (x, y) = .ok (some g.turn))
    {k : Bool} {K : Int} (hk : k = true → g.rule.komi = .fin ((K : Rat) / 2)) (hK : K.natAbs < 2 ^ 21)
    {ord ord' : List Point → List Point} (hord : ∀ l, (ord l).Perm l) (hord' : ∀ l, (ord' l).Perm l) :
    ∃ (t : Nat) (s s' : Rat × Rat), Scores dbg ord g (areaFlags k) s ∧ Scores dbg ord' g' (areaFlags k) s' ∧
      of g.turn.opp g.goban.numberOfStones = of g.turn.opp g'.goban.numberOfStones + t ∧
      (Territory n g.goban.view g.turn (x, y) → t = 0 ∧ s' = s) ∧
      (¬ Territory n g.goban.view g.turn (x, y) → of g.turn s + t + 1 ≤ of g.turn s') ∧
      of g.turn.opp s' + t ≤ of g.turn.opp s := by
  have hr' : Reach dbg n (m + 1) g' := .play h hp he e
  obtain ⟨t, ht0, _, h2, h3, h4⟩ := stays_points h hp he e hs
  obtain ⟨c1, _⟩ := move_counts h hp he e
  rw [← ht0] at c1
  obtain ⟨s, a1, a2⟩ := scores_exact h (exact_area hk hK) hord
  obtain ⟨s', b1, b2⟩ := scores_exact hr' (exact_area (g := g') (by rw [play_rule e]; exact hk) hK) hord'
  refine ⟨t, s, s', a1, b1, ?_, ?_, ?_, ?_⟩
  · rw [numberOfStones_ok h.inv, numberOfStones_ok hr'.inv]
    revert c1
    cases g.turn <;> exact fun h => h
  · intro ht
    obtain ⟨i1, i2⟩ := h2 ht
    refine ⟨i1, ?_⟩
    have key : ∀ d, of d s' = of d s := by
      intro d; rw [a2, b2, points_area, points_area, i2]
    exact Prod.ext (key .black) (key .white)
  · intro ht
    have := Rat.natCast_le_natCast.2 (h3 ht)
    rw [a2, b2, points_area, points_area]
    simp only [Rat.natCast_add] at this
    grind
  · have := Rat.natCast_le_natCast.2 h4
    rw [a2, b2, points_area, points_area]
    simp only [Rat.natCast_add] at this
    grind

/-- **C112**, counting by territory and prisoners. A stone that stays on the board, `t` opposing stones being captured: on a point of
own territory it costs the player exactly one point and the opponent nothing; anywhere else it costs the player nothing and gains
at least two points for each stone captured. The opponent never gains any. -/
theorem C112_territory (h : Reach dbg n m g) {x y : Nat} (hp : OnBoard n (x, y)) (he : g.goban.getColor (x, y) = .ok none)
    (e : g.play dbg (.play x y) = .ok g') (hs : g'.goban.getColor (x, y) = .ok (some g.turn))
    {k : Bool} {K : Int} (hk : k = true → g.rule.komi = .fin ((K : Rat) / 2)) (hK : K.natAbs < 2 ^ 21)
    (hb : g'.prisoners.1 < 2 ^ 20) (hw : g'.prisoners.2 < 2 ^ 20)
    {ord ord' : List Point → List Point} (hord : ∀ l, (ord l).Perm l) (hord' : ∀ l, (ord' l).Perm l) :
    ∃ (t : Nat) (s s' : Rat × Rat), Scores dbg ord g (territoryFlags k) s ∧ Scores dbg ord' g' (territoryFlags k) s' ∧
      of g.turn.opp g.goban.numberOfStones = of g.turn.opp g'.goban.numberOfStones + t ∧
      (Territory n g.goban.view g.turn (x, y) → t = 0 ∧ of g.turn s' = of g.turn s - 1 ∧ of g.turn.opp s' = of g.turn.opp s) ∧
      (¬ Territory n g.goban.view g.turn (x, y) → of g.turn s + 2 * t ≤ of g.turn s') ∧
      of g.turn.opp s' ≤ of g.turn.opp s := by
  have hr' : Reach dbg n (m + 1) g' := .play h hp he e
  obtain ⟨t, ht0, h1, h2, h3, h4⟩ := stays_points h hp he e hs
  obtain ⟨c1, c2, c3, c4⟩ := move_counts h hp he e
  rw [← ht0] at c1 c3
  rw [h1] at c2 c4
  have hpr : g.prisoners.1 ≤ g'.prisoners.1 ∧ g.prisoners.2 ≤ g'.prisoners.2 := by
    have := (C11_play h hp he).of_ok e
    omega
  obtain ⟨s, a1, a2⟩ := scores_exact h (exact_territory hk hK (by omega) (by omega)) hord
  obtain ⟨s', b1, b2⟩ := scores_exact hr' (exact_territory (g := g') (by rw [play_rule e]; exact hk) hK hb hw) hord'
  have p1 := points_territory (n := n) (g := g) k g.turn
  have p2 := points_territory (n := n) (g := g) k g.turn.opp
  have p3 := points_territory (n := n) (g := g') k g.turn
  have p4 := points_territory (n := n) (g := g') k g.turn.opp
  refine ⟨t, s, s', a1, b1, ?_, ?_, ?_, ?_⟩
  · rw [numberOfStones_ok h.inv, numberOfStones_ok hr'.inv]
    revert c1
    cases g.turn <;> exact fun h => h
  · intro ht
    obtain ⟨i1, i2⟩ := h2 ht
    have j1 := i2 g.turn
    have j2 := i2 g.turn.opp
    refine ⟨i1, ?_, ?_⟩
    · have q : pointsOf n g (territoryFlags k) g.turn = pointsOf n g' (territoryFlags k) g.turn + 1 := by omega
      rw [a2, b2, q, Rat.natCast_add]
      grind
    · have q : pointsOf n g (territoryFlags k) g.turn.opp = pointsOf n g' (territoryFlags k) g.turn.opp := by omega
      rw [a2, b2, q]
  · intro ht
    have j := h3 ht
    have q : pointsOf n g (territoryFlags k) g.turn + 2 * t ≤ pointsOf n g' (territoryFlags k) g.turn := by omega
    have q := Rat.natCast_le_natCast.2 q
    rw [a2, b2]
    simp only [Rat.natCast_add, Rat.natCast_mul] at q
    grind
  · have q : pointsOf n g' (territoryFlags k) g.turn.opp ≤ pointsOf n g (territoryFlags k) g.turn.opp := by omega
    have q := Rat.natCast_le_natCast.2 q
    rw [a2, b2]
    grind

/-- **C112**, suicide: the stone is not on the board afterwards, and `t` stones of the player are gone, that one included. By area the
player loses at least `t - 1` points and the opponent nothing. By territory and prisoners the player gains nothing and the opponent
at least `t` points. -/
theorem C112_suicide (h : Reach dbg n m g) {x y : Nat} (hp : OnBoard n (x, y)) (he : g.goban.getColor (x, y) = .ok none)
    (e : g.play dbg (.play x y) = .ok g') (hs : g'.goban.getColor (x, y) = .ok none)
    {k : Bool} {K : Int} (hk : k = true → g.rule.komi = .fin ((K : Rat) / 2)) (hK : K.natAbs < 2 ^ 21)
    (hb : g'.prisoners.1 < 2 ^ 20) (hw : g'.prisoners.2 < 2 ^ 20)
    {ord ord' : List Point → List Point} (hord : ∀ l, (ord l).Perm l) (hord' : ∀ l, (ord' l).Perm l) :
    ∃ (t : Nat) (a a' s s' : Rat × Rat), Scores dbg ord g (areaFlags k) a ∧ Scores dbg ord' g' (areaFlags k) a' ∧
      Scores dbg ord g (territoryFlags k) s ∧ Scores dbg ord' g' (territoryFlags k) s' ∧ 1 ≤ t ∧
      of g.turn g.goban.numberOfStones + 1 = of g.turn g'.goban.numberOfStones + t ∧
      of g.turn a' + (t - 1) ≤ of g.turn a ∧ of g.turn.opp a ≤ of g.turn.opp a' ∧
      of g.turn s' ≤ of g.turn s ∧ of g.turn.opp s + t ≤ of g.turn.opp s' := by
  have h0 := (getColor_none h.inv hp).1 he
  have hr' : Reach dbg n (m + 1) g' := .play h hp he e
  have hv := (C09_play_local h hp he).of_ok e
  have hsp : g'.goban.view (x, y) = none := (getColor_none hr'.inv hp).1 hs
  have hf : (!g.rule.flagIllegal.suicide) = true := by
    cases hf : (!g.rule.flagIllegal.suicide)
    · rw [hf] at hv
      have := hv _ hp
      rw [hsp, playLocal_self] at this
      cases this
    · rfl
  rw [hf] at hv
  have hsu : Spec.SuicideLocal n g.goban.view (x, y) g.turn := by
    apply Classical.byContradiction
    intro hns
    have := hv _ hp
    rw [hsp, playLocal_eq true hns, playLocal_self] at this
    cases this
  obtain ⟨c1, c2, c3, c4⟩ := move_counts h hp he e
  have k0 : Spec.vanished n g.goban.view g'.goban.view g.turn.opp = 0 := by
    unfold Spec.vanished
    rw [List.length_eq_zero_iff, List.filter_eq_nil_iff]
    intro q hq hh
    obtain ⟨h1, h2⟩ := of_decide_eq_true hh
    rw [hv q (mem_points.1 hq), suicide_opp h0 hsu (mem_points.1 hq) h1] at h2
    cases h2
  have k1 := area_suicide h0 hsu hp
  have k2 := area_suicide_opp h0 hsu hp
  rw [← area_congr hv, ← vanished_congr (fun _ _ => rfl) hv] at k1
  rw [← area_congr hv] at k2
  rw [k0] at c1 c3
  generalize ht : Spec.vanished n (place g.goban.view (x, y) g.turn) g'.goban.view g.turn = t at c2 c4 k1
  have ht1 : 1 ≤ t := by
    rw [← ht]
    unfold Spec.vanished
    exact List.length_pos_of_mem (List.mem_filter.2 ⟨mem_points.2 hp, decide_eq_true ⟨place_self _ _ _, hsp⟩⟩)
  have hpr : g.prisoners.1 ≤ g'.prisoners.1 ∧ g.prisoners.2 ≤ g'.prisoners.2 := by
    have := (C11_play h hp he).of_ok e
    omega
  have hk' : k = true → g'.rule.komi = .fin ((K : Rat) / 2) := by rw [play_rule e]; exact hk
  obtain ⟨a, a1, a2⟩ := scores_exact h (exact_area hk hK) hord
  obtain ⟨a', a1', a2'⟩ := scores_exact hr' (exact_area hk' hK) hord'
  obtain ⟨s, b1, b2⟩ := scores_exact h (exact_territory hk hK (by omega) (by omega)) hord
  obtain ⟨s', b1', b2'⟩ := scores_exact hr' (exact_territory hk' hK hb hw) hord'
  have p1 := points_territory (n := n) (g := g) k g.turn
  have p2 := points_territory (n := n) (g := g) k g.turn.opp
  have p3 := points_territory (n := n) (g := g') k g.turn
  have p4 := points_territory (n := n) (g := g') k g.turn.opp
  refine ⟨t, a, a', s, s', a1, a1', b1, b1', ht1, ?_, ?_, ?_, ?_, ?_⟩
  · rw [numberOfStones_ok h.inv, numberOfStones_ok hr'.inv]
    revert c2
    cases g.turn <;> exact fun h => h
  · have q := Rat.natCast_le_natCast.2 k1
    rw [a2, a2', points_area, points_area]
    simp only [Rat.natCast_add] at q
    grind
  · have q := Rat.natCast_le_natCast.2 k2
    rw [a2, a2', points_area, points_area]
    grind
  · have q : pointsOf n g' (territoryFlags k) g.turn ≤ pointsOf n g (territoryFlags k) g.turn := by omega
    have q := Rat.natCast_le_natCast.2 q
    rw [b2, b2']
    grind
  · have q : pointsOf n g (territoryFlags k) g.turn.opp + t ≤ pointsOf n g' (territoryFlags k) g.turn.opp := by omega
    have q := Rat.natCast_le_natCast.2 q
    rw [b2, b2']
    simp only [Rat.natCast_add] at q
    grind

/-- Non-vacuity of C112: a stone on a point of own territory. -/
example : ∃ g, Legal true 3 4 g ∧ (g.goban.getColor (0, 0) == .ok none &&
    okAnd (g.calculateScoreBy true id (areaFlags false)) (fun s => s == (.fin 3, .fin 2)) &&
    okAnd (g.calculateScoreBy true id (territoryFlags false)) (fun s => s == (.fin 1, .fin 0)) &&
    okAnd (g.play true (.play 0 0)) (fun g' => g'.goban.getColor (0, 0) == .ok (some g.turn) &&
      okAnd (g'.calculateScoreBy true id (areaFlags false)) (fun s => s == (.fin 3, .fin 2)) &&
      okAnd (g'.calculateScoreBy true id (territoryFlags false)) (fun s => s == (.fin 0, .fin 0)))) = true :=
  mkGame_exists (rule := JAPANESE) (l := [.try_ (.play 0 1), .try_ (.play 2 2), .try_ (.play 1 0), .try_ (.play 2 1)]) (by decide) (by decide +kernel)

/-- Non-vacuity of C112: a stone on a point that is nobody's. -/
example : ∃ g, Legal true 3 4 g ∧ (g.goban.getColor (1, 1) == .ok none &&
    okAnd (g.calculateScoreBy true id (areaFlags false)) (fun s => s == (.fin 3, .fin 2)) &&
    okAnd (g.calculateScoreBy true id (territoryFlags false)) (fun s => s == (.fin 1, .fin 0)) &&
    okAnd (g.play true (.play 1 1)) (fun g' => g'.goban.getColor (1, 1) == .ok (some g.turn) &&
      okAnd (g'.calculateScoreBy true id (areaFlags false)) (fun s => s == (.fin 4, .fin 2)) &&
      okAnd (g'.calculateScoreBy true id (territoryFlags false)) (fun s => s == (.fin 1, .fin 0)))) = true :=
  mkGame_exists (rule := JAPANESE) (l := [.try_ (.play 0 1), .try_ (.play 2 2), .try_ (.play 1 0), .try_ (.play 2 1)]) (by decide) (by decide +kernel)

/-- Non-vacuity of C112: a capture of two stones. -/
example : ∃ g, Legal true 3 4 g ∧ (g.goban.getColor (1, 0) == .ok none &&
    okAnd (g.calculateScoreBy true id (areaFlags false)) (fun s => s == (.fin 2, .fin 2)) &&
    okAnd (g.calculateScoreBy true id (territoryFlags false)) (fun s => s == (.fin 0, .fin 0)) &&
    okAnd (g.play true (.play 1 0)) (fun g' => g'.goban.getColor (1, 0) == .ok (some g.turn) &&
      okAnd (g'.calculateScoreBy true id (areaFlags false)) (fun s => s == (.fin 9, .fin 0)) &&
      okAnd (g'.calculateScoreBy true id (territoryFlags false)) (fun s => s == (.fin 8, .fin 0)))) = true :=
  mkGame_exists (rule := JAPANESE) (l := [.try_ (.play 0 2), .try_ (.play 0 1), .try_ (.play 1 1), .try_ (.play 0 0)]) (by decide) (by decide +kernel)

/-- Non-vacuity of C112: a suicide of two stones. -/
example : ∃ g, Legal true 3 6 g ∧ (g.goban.getColor (0, 1) == .ok none &&
    okAnd (g.calculateScoreBy true id (areaFlags false)) (fun s => s == (.fin 1, .fin 7)) &&
    okAnd (g.calculateScoreBy true id (territoryFlags false)) (fun s => s == (.fin 0, .fin 4)) &&
    okAnd (g.play true (.play 0 1)) (fun g' => g'.goban.getColor (0, 1) == .ok (none) &&
      okAnd (g'.calculateScoreBy true id (areaFlags false)) (fun s => s == (.fin 0, .fin 9)) &&
      okAnd (g'.calculateScoreBy true id (territoryFlags false)) (fun s => s == (.fin 0, .fin 8)))) = true :=
  mkGame_exists (rule := { JAPANESE with flagIllegal := { JAPANESE.flagIllegal with suicide := false } }) (l := [.try_ (.play 0 0), .try_ (.play 0 2), .try_ .pass, .try_ (.play 1 1), .try_ .pass, .try_ (.play 1 0)]) (by decide) (by decide +kernel)

end Model
