import Verif.Proofs.Territory
import Verif.Proofs.Total
import Verif.Proofs.F32
import Verif.Props.Support
/-!
# Regions, territories, scores and outcomes: C19–C22

Where the code iterates over a `HashSet`, the order of the iteration is a parameter `ord`; the theorems hold for every `ord`
that permutes its argument.
-/

namespace Model
open Spec (OnBoard Adj Linked HasLiberty NoDead place SameOn Pos)

variable {dbg : Bool} {n : Dim} {m : Nat}

/-! ## C19 -/

/-- **C19**. `get_group_from_point` of an on-board point with its colour ends, without panic, and returns exactly the points
connected to it through points of the same colour (with their colour), each once. -/
theorem C19_group_from_point {g : Goban} {p : Coord} {o : Option Color} (h : Board dbg n m g) (hp : OnBoard n p)
    (ho : g.getColor p = .ok o) :
    ∃ R, g.groupFromPoint dbg { coord := p, color := o } = .ok R ∧ R.Nodup ∧
      (∀ q, Linked n g.view p q ↔ ({ coord := q, color := o } : Point) ∈ R) ∧
      ∀ x ∈ R, OnBoard n x.coord ∧ x.color = o ∧ g.getColor x.coord = .ok o := by
  have hI := h.inv.1
  rw [hI.getColor_view hp] at ho
  cases ho
  obtain ⟨R, e, h1, h2⟩ := groupFromPoint_ok (dbg := dbg) hI hp
  refine ⟨R, e, h1, ?_, ?_⟩
  · intro q
    rw [h2]
    constructor
    · intro hl
      exact ⟨linked_onBoard hl hp, by unfold Goban.pt; rw [linked_same hl], hl⟩
    · exact fun h => h.2.2
  · intro x hx
    obtain ⟨a, b, c⟩ := (h2 x).1 hx
    refine ⟨a, ?_, ?_⟩
    · rw [congrArg Point.color b]; exact linked_same c
    · rw [hI.getColor_view a, linked_same c]

/-- Non-vacuity of C19: an empty region with a cycle (the search pushes points twice), and a group of stones. -/
example : ∃ g, Board true 4 2 g ∧ okAnd (do
      let e ← g.groupFromPoint true { coord := (0, 0), color := none }
      let b ← g.groupFromPoint true { coord := (3, 3), color := some .black }
      .ok (e.length, b.length)) (fun r => r == (14, 2)) = true :=
  mkBoard_exists (l := [.push 3 3 .black, .push 2 3 .black]) (by decide +kernel)

/-- `get_chains_from_stones` on points of the board with their colours: the regions of these points, each region once. -/
theorem C19_chains_from_stones {g : Goban} {l : List Point} (h : Board dbg n m g)
    (hl : ∀ s ∈ l, OnBoard n s.coord ∧ g.getColor s.coord = .ok s.color) :
    ∃ gs, g.chainsFromStones dbg l = .ok gs ∧ (∀ R ∈ gs, R.Nodup) ∧
      gs.Pairwise (fun a b => ∀ x, x ∈ a → x ∉ b) ∧
      (∀ R ∈ gs, ∃ s ∈ l, s ∈ R ∧ ∀ x, x ∈ R ↔ x.color = s.color ∧ Linked n g.view s.coord x.coord) ∧
      ∀ s ∈ l, ∃ R ∈ gs, s ∈ R := by
  have hI := h.inv.1
  obtain ⟨gs, e, h1, h2, h3⟩ := chainsFromStones_ok (dbg := dbg) hI (l := l) (fun s hs => by
    obtain ⟨a, b⟩ := hl s hs
    rw [hI.getColor_view a] at b
    exact ⟨a, by unfold Goban.pt; rw [Except.ok.inj b]⟩)
  refine ⟨gs, e, ?_, h2, ?_, h3⟩
  · intro R hR
    obtain ⟨p, _, _, hr⟩ := h1 R hR
    exact hr.1
  · intro R hR
    obtain ⟨p, hp, hpl, hr⟩ := h1 R hR
    refine ⟨g.pt p, hpl, (hr.2 _).2 ⟨hp, rfl, .refl _⟩, ?_⟩
    intro x
    rw [hr.2]
    constructor
    · rintro ⟨_, b, c⟩
      exact ⟨by rw [congrArg Point.color b]; exact linked_same c, c⟩
    · rintro ⟨a, c⟩
      refine ⟨linked_onBoard c hp, ?_, c⟩
      obtain ⟨xc, xk⟩ := x
      dsimp only at a c ⊢
      unfold Goban.pt at a ⊢
      rw [linked_same c, a]
      rfl

/-! ## C20 -/

/-- **C20**. `get_territories` returns exactly the territory of each colour, each point once, whatever the order in which the
hash sets are visited. -/
theorem C20_territories {n : Nat} {g : Goban} (h : Board dbg n m g) {ord : List Point → List Point} (hord : ∀ l, (ord l).Perm l) :
    ∃ b w, g.territories dbg ord = .ok (b, w) ∧ (b ++ w).Nodup ∧ (∀ x ∈ b ++ w, x.color = none) ∧
      (∀ p, p ∈ b.map Point.coord ↔ Spec.Territory n g.view .black p) ∧
      (∀ p, p ∈ w.map Point.coord ↔ Spec.Territory n g.view .white p) := by
  obtain ⟨b, w, e, hb, hw, h1, h2⟩ := territories_ok (dbg := dbg) h.inv.1 hord
  have key : ∀ (l : List Point) c, (∀ x, x ∈ l ↔ x.color = none ∧ Spec.Territory n g.view c x.coord) →
      ∀ p, p ∈ l.map Point.coord ↔ Spec.Territory n g.view c p := by
    intro l c hl p
    rw [List.mem_map]
    constructor
    · rintro ⟨x, hx, rfl⟩; exact ((hl x).1 hx).2
    · intro hp; exact ⟨⟨p, none⟩, (hl _).2 ⟨rfl, hp⟩, rfl⟩
  refine ⟨b, w, e, ?_, ?_, key b _ h1, key w _ h2⟩
  · rw [List.nodup_append]
    refine ⟨hb, hw, ?_⟩
    rintro x hx y hy rfl
    exact ((h1 x).1 hx).2.2.2.2 ((h2 x).1 hy).2.2.2.1
  · intro x hx
    rcases List.mem_append.1 hx with hx | hx
    · exact ((h1 x).1 hx).1
    · exact ((h2 x).1 hx).1

/-- Lists of points with pairwise different coordinates: as many as the points of the board that satisfy `P`. -/
theorem length_eq_size {l : List Point} {c : Color} {pos : Pos} (hl : l.Nodup)
    (h : ∀ x, x ∈ l ↔ x.color = none ∧ Spec.Territory n pos c x.coord) : l.length = Spec.territorySize n pos c := by
  classical
  unfold Spec.territorySize
  have : (l.map Point.coord).Perm ((Spec.points n).filter (fun p => decide (Spec.Territory n pos c p))) := by
    rw [List.perm_ext_iff_of_nodup]
    · intro p
      rw [List.mem_map, List.mem_filter, mem_points, decide_eq_true_eq]
      constructor
      · rintro ⟨x, hx, rfl⟩
        exact ⟨((h x).1 hx).2.1, ((h x).1 hx).2⟩
      · rintro ⟨_, hp⟩
        exact ⟨⟨p, none⟩, (h _).2 ⟨rfl, hp⟩, rfl⟩
    · refine List.Pairwise.map _ ?_ (List.Pairwise.and_mem.1 hl)
      rintro ⟨a, ca⟩ ⟨b, cb⟩ ⟨ha, hb, hne⟩ hab
      have e1 := ((h _).1 ha).1
      have e2 := ((h _).1 hb).1
      dsimp only at e1 e2 hab
      exact hne (by rw [e1, e2, hab])
    · exact (points_nodup n).filter _
  rw [← this.length_eq, List.length_map]

theorem calculateTerritories_ok {n : Nat} {g : Goban} (hI : Inv n g) {ord : List Point → List Point} (hord : ∀ l, (ord l).Perm l) :
    g.calculateTerritories dbg ord =
      .ok (Spec.territorySize n g.view .black, Spec.territorySize n g.view .white) := by
  obtain ⟨b, w, e, hb, hw, h1, h2⟩ := territories_ok (dbg := dbg) hI hord
  unfold Goban.calculateTerritories
  rw [e, ok_bind, length_eq_size hb h1, length_eq_size hw h2]

/-- **C20**. `calculate_territories` returns the numbers of points of territory. -/
theorem C20_calculate_territories {n : Nat} {g : Goban} (h : Board dbg n m g) {ord : List Point → List Point}
    (hord : ∀ l, (ord l).Perm l) :
    g.calculateTerritories dbg ord =
      .ok (Spec.territorySize n g.view .black, Spec.territorySize n g.view .white) := calculateTerritories_ok h.inv.1 hord

/-- Non-vacuity of C20: black territory (0,0), white territory {(2,2)}, and a neutral region {(0,2)}; both visiting orders. -/
example : ∃ g, Board true 3 6 g ∧
    (okAnd (g.territories true id) (fun t => t.1.map Point.coord == [(0, 0)] && t.2.map Point.coord == [(2, 2)]) &&
     okAnd (g.calculateTerritories true List.reverse) (fun t => t == (1, 1))) = true :=
  mkBoard_exists (l := [.push 0 1 .black, .push 1 0 .black, .push 1 2 .white, .push 2 1 .white, .push 1 1 .white,
    .push 2 0 .black]) (by decide +kernel)

/-! ## C21 -/

/-- The whole points of Black: territory, and what the flags ask for. -/
noncomputable def blackPoints (n : Dim) (g : Game) (f : ScoreRules) : Nat :=
  Spec.territorySize n g.goban.view .black + (if f.prisonners then g.prisoners.1 else 0) +
    (if f.stones then Spec.count n g.goban.view (some .black) else 0)

/-- The whole points of White, without komi. -/
noncomputable def whitePoints (n : Dim) (g : Game) (f : ScoreRules) : Nat :=
  Spec.territorySize n g.goban.view .white + (if f.prisonners then g.prisoners.2 else 0) +
    (if f.stones then Spec.count n g.goban.view (some .white) else 0)

/-- The komi is `K / 2` and smaller than 2^20 in size (asked only when the komi counts); prisoners are fewer than 2^20 (asked only when
they count). -/
structure Exact (g : Game) (f : ScoreRules) (K : Int) : Prop where
  komi : f.komi = true → g.rule.komi = .fin ((K : Rat) / 2)
  small : K.natAbs < 2 ^ 21
  black : f.prisonners = true → g.prisoners.1 < 2 ^ 20
  white : f.prisonners = true → g.prisoners.2 < 2 ^ 20

theorem territorySize_le (pos : Pos) (c : Color) : Spec.territorySize n pos c ≤ n.area := by
  classical
  unfold Spec.territorySize
  refine Nat.le_trans (List.length_filter_le _ _) ?_
  have : (Spec.points n).length = n.area := points_length n
  omega

theorem count_le_size (pos : Pos) (o : Option Color) : Spec.count n pos o ≤ n.area := by
  unfold Spec.count
  refine Nat.le_trans (List.length_filter_le _ _) ?_
  have : (Spec.points n).length = n.area := points_length n
  omega

theorem points_lt {n : Nat} {t p s : Nat} {f1 f2 : Bool} (hn : n ≤ 19) (ht : t ≤ (n : Dim).area) (hs : s ≤ (n : Dim).area) (hp : f1 = true → p < 2 ^ 20) :
    t + (if f1 then p else 0) + (if f2 then s else 0) < 2 ^ 20 + 722 := by
  have h2 : (n : Dim).area ≤ 19 * 19 := Nat.mul_le_mul hn hn
  cases f1
  · simp only [Bool.false_eq_true, if_false]; split <;> omega
  · have := hp rfl
    simp only [if_true]; split <;> omega

theorem points_le {t p s : Nat} {f1 f2 : Bool} (ht : t ≤ 2 ^ 18) (hs : s ≤ 361) (hp : f1 = true → p < 2 ^ 20) :
    t + (if f1 then p else 0) + (if f2 then s else 0) < 2 ^ 20 + 2 ^ 18 + 361 := by
  cases f1
  · simp only [Bool.false_eq_true, if_false]; split <;> omega
  · have := hp rfl
    simp only [if_true]; split <;> omega

/-- The sum the code makes, on small numbers. -/
theorem sum_ok {t p s : Nat} {f1 f2 : Bool} (ht : t < 2 ^ 20) (hp : f1 = true → p < 2 ^ 20) (hs : s < 2 ^ 20) :
    (if f2 then (if f1 then (F32.ofNat t).add (.ofNat p) else F32.ofNat t).add (.ofNat s)
      else if f1 then (F32.ofNat t).add (.ofNat p) else F32.ofNat t) =
    F32.half (2 * ((t + (if f1 then p else 0) + (if f2 then s else 0) : Nat) : Int)) := by
  rw [F32.ofNat_half (show t < 2 ^ 23 by omega), F32.ofNat_half (show s < 2 ^ 23 by omega)]
  cases f1
  · cases f2 <;> simp only [Bool.false_eq_true, if_true, if_false]
    · rfl
    · rw [F32.half_add (by omega)]; congr 1; omega
  · have hp := hp rfl
    rw [F32.ofNat_half (show p < 2 ^ 23 by omega)]
    cases f2 <;> simp only [Bool.false_eq_true, if_true, if_false]
    · rw [F32.half_add (by omega)]; congr 1; omega
    · rw [F32.half_add (by omega), F32.half_add (by omega)]; congr 1; omega

/-- The score in half points, for any numbers of points of territory and of stones that are not too large. -/
theorem half_of {g : Game} {f : ScoreRules} {K : Int} {ord : List Point → List Point} {tb tw sb sw : Nat}
    (et : g.goban.calculateTerritories dbg ord = .ok (tb, tw)) (es : g.goban.numberOfStones = (sb, sw)) (hx : Exact g f K)
    (htb : tb ≤ 2 ^ 18) (htw : tw ≤ 2 ^ 18) (hsb : sb ≤ 361) (hsw : sw ≤ 361) :
    g.calculateScoreBy dbg ord f = .ok
      (F32.half (2 * ((tb + (if f.prisonners then g.prisoners.1 else 0) + (if f.stones then sb else 0) : Nat) : Int)),
      F32.half (2 * ((tw + (if f.prisonners then g.prisoners.2 else 0) + (if f.stones then sw else 0) : Nat) : Int) +
        (if f.komi then K else 0))) := by
  have hb := sum_ok (f1 := f.prisonners) (f2 := f.stones) (show tb < 2 ^ 20 by omega) hx.black (show sb < 2 ^ 20 by omega)
  have hw := sum_ok (f1 := f.prisonners) (f2 := f.stones) (show tw < 2 ^ 20 by omega) hx.white (show sw < 2 ^ 20 by omega)
  have hwl := points_le (f2 := f.stones) htw hsw hx.white
  unfold Game.calculateScoreBy
  rw [et, ok_bind, es]
  dsimp only
  have hk : ∀ x : Int, x < 2 ^ 22 → 0 ≤ x → (if f.komi then (F32.half x).add g.rule.komi else F32.half x) =
      F32.half (x + (if f.komi then K else 0)) := by
    intro x hx1 hx2
    cases hf : f.komi
    · simp
    · have hs := hx.small
      rw [hx.komi hf]
      show F32.add (F32.half x) (F32.half K) = _
      rw [F32.half_add (by omega)]
      rfl
  rw [← hk _ (by omega) (by omega), ← hb, ← hw]
  cases f.prisonners <;> cases f.stones <;> cases f.komi <;> rfl

/-- The score in half points. -/
theorem score_half {n : Nat} {g : Game} {f : ScoreRules} {K : Int} (hI : Inv n g.goban) (hx : Exact g f K)
    {ord : List Point → List Point} (hord : ∀ l, (ord l).Perm l) :
    g.calculateScoreBy dbg ord f = .ok (F32.half (2 * (blackPoints n g f : Int)),
      F32.half (2 * (whitePoints n g f : Int) + (if f.komi then K else 0))) := by
  have h2 : (n : Dim).area ≤ 19 * 19 := Nat.mul_le_mul hI.good.h19 hI.good.h19
  have t1 := territorySize_le (n := n) g.goban.view .black
  have t2 := territorySize_le (n := n) g.goban.view .white
  have s1 := count_le_size (n := n) g.goban.view (some .black)
  have s2 := count_le_size (n := n) g.goban.view (some .white)
  exact half_of (calculateTerritories_ok hI hord) (numberOfStones_ok hI) hx (by omega) (by omega) (by omega) (by omega)

/-- **C21**. `calculate_score_by` adds what the flags ask for, without rounding error. -/
theorem C21_calculate_score_by {n : Nat} {g : Game} {f : ScoreRules} {K : Int} (h : Reach dbg n m g) (hx : Exact g f K)
    {ord : List Point → List Point} (hord : ∀ l, (ord l).Perm l) :
    g.calculateScoreBy dbg ord f = .ok (.fin (blackPoints n g f),
      .fin ((whitePoints n g f : Rat) + (if f.komi then (K : Rat) / 2 else 0))) := by
  rw [score_half h.inv hx hord]
  unfold F32.half
  have e : ∀ k : Nat, ((2 * (k : Int) : Int) : Rat) = 2 * (k : Rat) := by
    intro k; rw [Rat.intCast_mul, Rat.intCast_natCast]; rfl
  congr 2
  · rw [e]; congr 1; grind
  · congr 1
    rw [Rat.intCast_add, e]
    cases f.komi
    · simp only [Bool.false_eq_true, if_false]; grind
    · simp only [if_true]; grind

/-- **C21**. `calculate_score` uses the flags of the rule of the game. -/
theorem C21_calculate_score {n : Nat} {g : Game} {K : Int} (h : Reach dbg n m g) (hx : Exact g g.rule.flagScore K)
    {ord : List Point → List Point} (hord : ∀ l, (ord l).Perm l) :
    g.calculateScore dbg ord = .ok (.fin (blackPoints n g g.rule.flagScore),
      .fin ((whitePoints n g g.rule.flagScore : Rat) + (if g.rule.flagScore.komi then (K : Rat) / 2 else 0))) :=
  C21_calculate_score_by h hx hord

/-- The game used below: Black has captured a stone, two passes follow. -/
def exScored : List GOp :=
  [.try_ (.play 0 1), .try_ (.play 0 0), .try_ (.play 1 0), .try_ (.play 2 2), .try_ (.play 1 2), .try_ (.play 1 1),
   .try_ (.play 2 1), .try_ .pass, .try_ .pass]

/-- Non-vacuity of C21: a capture, both kinds of scoring, a negative komi. -/
example : (∃ g, Legal true 3 9 g ∧ (g.rule.komi == .fin ((13 : Int) / 2) && g.prisoners == (3, 0) &&
      okAnd (g.calculateScore true id) (fun s => s == (.fin 8, .fin (13 / 2)))) = true) ∧
    ∃ g, Legal true 3 9 g ∧ (g.rule.komi == .fin ((-3 : Int) / 2) && okAnd (g.calculateScore true List.reverse)
      (fun s => s == (.fin 9, .fin (-3 / 2)))) = true :=
  ⟨mkGame_exists (rule := JAPANESE) (l := exScored) (by decide) (by decide +kernel),
   mkGame_exists (rule := CHINESE) (l := exScored ++ [.setKomi (.fin (-3 / 2))]) (by decide) (by decide +kernel)⟩

/-! ## C22 -/

/-- **C22**. A recorded result (a resignation) is the outcome. -/
theorem C22_recorded {g : Game} {e : EndGame} {ord : List Point → List Point} (h : g.outcome = some e) :
    g.getOutcome dbg ord = .ok (some e) := by
  unfold Game.getOutcome Game.isOver
  rw [h]; rfl

/-- The result, for any numbers of points of territory and of stones that are not too large. -/
theorem passes_of {g : Game} {K : Int} (ho : g.outcome = none) (hp : 2 ≤ g.passes)
    {ord : List Point → List Point} {tb tw sb sw : Nat} (et : g.goban.calculateTerritories dbg ord = .ok (tb, tw))
    (es : g.goban.numberOfStones = (sb, sw)) (hx : Exact g g.rule.flagScore K) (htb : tb ≤ 2 ^ 18) (htw : tw ≤ 2 ^ 18)
    (hsb : sb ≤ 361) (hsw : sw ≤ 361) :
    ∃ b w : Rat, g.calculateScore dbg ord = .ok (.fin b, .fin w) ∧
      (b = w → g.getOutcome dbg ord = .ok (some .draw)) ∧
      (w < b → g.getOutcome dbg ord = .ok (some (.winnerByScore .black (.fin (b - w))))) ∧
      (b < w → g.getOutcome dbg ord = .ok (some (.winnerByScore .white (.fin (w - b))))) := by
  have e := half_of et es hx htb htw hsb hsw
  have hbl := points_le (f2 := g.rule.flagScore.stones) htb hsb hx.black
  have hwl := points_le (f2 := g.rule.flagScore.stones) htw hsw hx.white
  have hs := hx.small
  generalize (tb + (if g.rule.flagScore.prisonners then g.prisoners.1 else 0) + (if g.rule.flagScore.stones then sb else 0) : Nat) = b' at e hbl
  generalize (tw + (if g.rule.flagScore.prisonners then g.prisoners.2 else 0) + (if g.rule.flagScore.stones then sw else 0) : Nat) = w' at e hwl
  generalize hB : 2 * (b' : Int) = B at e
  have hW : (2 * (w' : Int) + (if g.rule.flagScore.komi then K else 0)).natAbs < 2 ^ 23 := by
    split <;> omega
  generalize 2 * (w' : Int) + (if g.rule.flagScore.komi then K else 0) = W at e hW
  have hcmp : ∀ k l : Int, (k : Rat) / 2 < (l : Rat) / 2 ↔ k < l := by
    intro k l
    have h1 := F32.half_lt k l
    unfold F32.half F32.lt at h1
    dsimp only at h1
    rw [← decide_eq_decide, h1]
  have e' : g.getOutcome dbg ord = .ok (some (Game.decideByScore (F32.half B, F32.half W))) := by
    unfold Game.getOutcome Game.isOver
    rw [ho]
    have : g.calculateScore dbg ord = _ := e
    rw [this]
    simp [hp, ok_bind]
  have hsub : ∀ k l : Int, ((k - l : Int) : Rat) / 2 = (k : Rat) / 2 - (l : Rat) / 2 := by
    intro k l; rw [Rat.intCast_sub]; grind
  refine ⟨_, _, e, ?_, ?_, ?_⟩
  · intro heq
    have h1 : B = W := by
      have a := hcmp B W
      have b := hcmp W B
      rw [heq] at a b
      have c : ¬ ((W : Rat) / 2 < (W : Rat) / 2) := Rat.lt_irrefl
      have a' : ¬ B < W := fun h => c (a.2 h)
      have b' : ¬ W < B := fun h => c (b.2 h)
      omega
    rw [e']
    unfold Game.decideByScore
    dsimp only
    rw [F32.half_sub (by omega), F32.half_abs_lt_eps, if_pos (by simp; omega)]
  · intro hlt
    have h1 := (hcmp W B).1 hlt
    rw [e']
    unfold Game.decideByScore
    dsimp only
    rw [F32.half_sub (by omega), F32.half_abs_lt_eps, if_neg (by simp; omega), F32.half_lt, if_pos (by simp; omega)]
    unfold F32.half
    rw [hsub]
  · intro hlt
    have h1 := (hcmp B W).1 hlt
    rw [e']
    unfold Game.decideByScore
    dsimp only
    rw [F32.half_sub (by omega), F32.half_abs_lt_eps, if_neg (by simp; omega), F32.half_lt, if_neg (by simp; omega),
      F32.half_sub (by omega)]
    unfold F32.half
    rw [hsub]

/-- **C22**. In a game that ended by two passes the outcome is a draw iff the scores are equal, otherwise the win of the side
with the larger score, by the exact difference. -/
theorem C22_two_passes {n : Nat} {g : Game} {K : Int} (h : Reach dbg n m g) (ho : g.outcome = none) (hp : 2 ≤ g.passes)
    (hx : Exact g g.rule.flagScore K) {ord : List Point → List Point} (hord : ∀ l, (ord l).Perm l) :
    ∃ b w : Rat, g.calculateScore dbg ord = .ok (.fin b, .fin w) ∧
      (b = w → g.getOutcome dbg ord = .ok (some .draw)) ∧
      (w < b → g.getOutcome dbg ord = .ok (some (.winnerByScore .black (.fin (b - w))))) ∧
      (b < w → g.getOutcome dbg ord = .ok (some (.winnerByScore .white (.fin (w - b))))) := by
  have hI := h.inv
  have h2 : (n : Dim).area ≤ 19 * 19 := Nat.mul_le_mul hI.good.h19 hI.good.h19
  have t1 := territorySize_le (n := n) g.goban.view .black
  have t2 := territorySize_le (n := n) g.goban.view .white
  have s1 := count_le_size (n := n) g.goban.view (some .black)
  have s2 := count_le_size (n := n) g.goban.view (some .white)
  exact passes_of ho hp (calculateTerritories_ok hI hord) (numberOfStones_ok hI) hx (by omega) (by omega) (by omega) (by omega)

/-- `outcome` always returns on reachable games, and is `None` iff the game is not over: no recorded result and fewer than
two passes in a row. No condition on the komi. -/
theorem C22_none_iff {n : Dim} {g : Game} (h : Reach dbg n m g) {ord : List Point → List Point} (hord : ∀ l, (ord l).Perm l) :
    ∃ o, g.getOutcome dbg ord = .ok o ∧ (o = none ↔ g.outcome = none ∧ g.passes < 2) := by
  unfold Game.getOutcome Game.isOver
  cases ho : g.outcome with
  | some e => exact ⟨some e, rfl, by simp⟩
  | none =>
    by_cases hp : 2 ≤ g.passes
    · obtain ⟨s, e⟩ := calculateScoreBy_any (dbg := dbg) h.inv hord g.rule.flagScore
      unfold Game.calculateScore
      rw [e]
      simp [hp, ok_bind]
    · exact ⟨none, by simp [hp], by simp; omega⟩

/-- Non-vacuity of C22: a win of Black, a win of White, a draw (komi 8) and a game that goes on. -/
example : (∃ g, Legal true 3 9 g ∧ okAnd (g.getOutcome true id)
      (fun o => o == some (.winnerByScore .black (.fin (3 / 2)))) = true) ∧
    (∃ g, Legal true 3 9 g ∧ okAnd (g.getOutcome true id)
      (fun o => o == some (.winnerByScore .white (.fin (1 / 2)))) = true) ∧
    (∃ g, Legal true 3 9 g ∧ okAnd (g.getOutcome true id) (fun o => o == some .draw) = true) ∧
    (∃ g, Legal true 3 8 g ∧ okAnd (g.getOutcome true id) (fun o => o == none) = true) :=
  ⟨mkGame_exists (rule := JAPANESE) (l := exScored) (by decide) (by decide +kernel),
   mkGame_exists (rule := JAPANESE) (l := exScored ++ [.setKomi (.fin (17 / 2))]) (by decide) (by decide +kernel),
   mkGame_exists (rule := JAPANESE) (l := exScored ++ [.setKomi (.fin 8)]) (by decide) (by decide +kernel),
   mkGame_exists (rule := JAPANESE) (l := exScored.take 8) (by decide) (by decide +kernel)⟩

/-! ### Komi values on which the outcome is wrong -/

/-- What C22 would say for every komi: the side with the larger score wins. -/
def C22Full : Prop := ∀ (dbg : Bool) (n m : Nat) (g : Game), Legal dbg n m g → g.outcome = none → 2 ≤ g.passes →
  ∀ b w, g.calculateScore dbg id = .ok (b, w) →
    (g.getOutcome dbg id = .ok (some .draw) ↔ b = w) ∧
    ∀ c d, g.getOutcome dbg id = .ok (some (.winnerByScore c d)) →
      (c = .black → F32.lt w b = true) ∧ (c = .white → F32.lt b w = true)

/-- With a komi that is not a number White wins, by a margin that is not a number, although White's score is not larger. -/
theorem C22_nan_komi (dbg : Bool) : ∃ g, Legal dbg 1 2 g ∧ g.outcome = none ∧ 2 ≤ g.passes ∧
    g.calculateScore dbg id = .ok (.fin 0, .nan) ∧ g.getOutcome dbg id = .ok (some (.winnerByScore .white .nan)) := by
  obtain ⟨g, h, e⟩ := mkGame_exists (dbg := dbg) (n := 1) (rule := JAPANESE) (l := [.try_ .pass, .try_ .pass, .setKomi .nan])
    (f := fun g => decide (g.outcome = none ∧ 2 ≤ g.passes ∧
      g.calculateScore dbg id = .ok (.fin 0, .nan) ∧ g.getOutcome dbg id = .ok (some (.winnerByScore .white .nan))))
    (by decide) (by cases dbg <;> decide +kernel)
  exact ⟨g, h, by simpa using e⟩

/-- With a komi of 2^-24 (an exact `f32`) the game is drawn although White's score is larger. -/
theorem C22_small_komi (dbg : Bool) : ∃ g, Legal dbg 1 2 g ∧ g.outcome = none ∧ 2 ≤ g.passes ∧
    g.calculateScore dbg id = .ok (.fin 0, .fin (1 / 16777216)) ∧ g.getOutcome dbg id = .ok (some .draw) := by
  obtain ⟨g, h, e⟩ := mkGame_exists (dbg := dbg) (n := 1) (rule := JAPANESE)
    (l := [.try_ .pass, .try_ .pass, .setKomi (.fin (1 / 16777216))])
    (f := fun g => decide (g.outcome = none ∧ 2 ≤ g.passes ∧
      g.calculateScore dbg id = .ok (.fin 0, .fin (1 / 16777216)) ∧ g.getOutcome dbg id = .ok (some .draw)))
    (by decide) (by cases dbg <;> decide +kernel)
  exact ⟨g, h, by simpa using e⟩

theorem C22_every_komi_false : ¬ C22Full := by
  intro h
  obtain ⟨g, h1, h2, h3, h4, h5⟩ := C22_small_komi true
  have := ((h true 1 2 g h1 h2 h3 _ _ h4).1.1 h5)
  exact absurd this (by decide +kernel)

end Model
