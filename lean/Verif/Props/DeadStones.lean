import Verif.Model.DeadStones
import Verif.Props.Board
import Verif.Props.Flow
import Verif.Props.Score
import Verif.Props.RectMoves
import Verif.Props.Chains
/-!
# Dead stones and play-outs: C45, C46, C51
-/

namespace Model
open Spec (OnBoard Adj Linked HasLiberty NoDead place SameOn Pos)

variable {dbg : Bool} {n : Dim} {m : Nat} {g : Game}

/-! ## C46 -/

/-- An accepted point that is not an eye of the player to move. -/
def Game.Candidate (dbg : Bool) (n : Dim) (g : Game) (p : Coord) : Prop :=
  OnBoard n p ∧ g.Accepts dbg p ∧ ¬ Spec.Eye n g.goban.view g.turn p

theorem fastPlayRandom_ok (h : Reach dbg n m g) (hps : g.passes ≠ 2) (hm : m < 65535) : ∀ (v : List Coord),
    (∀ p ∈ v, OnBoard n p) →
    (∃ p ∈ v, g.Candidate dbg n p ∧ g.fastPlayRandom dbg v = .ok (.play p.1 p.2)) ∨
      ((∀ p ∈ v, ¬ g.Candidate dbg n p) ∧ g.fastPlayRandom dbg v = .ok .pass)
  | [], _ => Or.inr ⟨by simp, rfl⟩
  | c :: v, hv => by
    have hc := hv c (by simp)
    obtain ⟨r, e1, _⟩ := (h.checkPointBy_total (dbg := dbg) hc g.rule.flagIllegal).total (fun hf => by have := h.full hf; omega)
    obtain ⟨b, e2, hb⟩ := checkEye_ok (dbg := dbg) (c := g.turn) h.inv hc
    have hacc := accepts_iff h hps hm hc
    have ih := fastPlayRandom_ok h hps hm v (fun p hp => hv p (by simp [hp]))
    have e1' : g.checkPoint dbg c = .ok r := e1
    unfold Game.fastPlayRandom
    rw [e1', ok_bind]
    have skip : ¬ g.Candidate dbg n c →
        (∃ p ∈ c :: v, g.Candidate dbg n p ∧ g.fastPlayRandom dbg v = .ok (.play p.1 p.2)) ∨
        ((∀ p ∈ c :: v, ¬ g.Candidate dbg n p) ∧ g.fastPlayRandom dbg v = .ok .pass) := by
      intro hnc
      rcases ih with ⟨p, h1, h2, h3⟩ | ⟨h1, h2⟩
      · exact Or.inl ⟨p, by simp [h1], h2, h3⟩
      · exact Or.inr ⟨by simpa using ⟨hnc, fun a b hab => h1 (a, b) hab⟩, h2⟩
    cases r with
    | some r =>
      have hnc : ¬ g.Candidate dbg n c := by
        rintro ⟨_, h2, _⟩
        have := (hacc.1 h2).2
        rw [e1'] at this; cases this
      simpa using skip hnc
    | none =>
      simp only [Option.isNone_none, if_true]
      rw [e2, ok_bind]
      cases b with
      | true =>
        have hnc : ¬ g.Candidate dbg n c := fun h2 => h2.2.2 (hb.1 rfl)
        simpa using skip hnc
      | false =>
        refine Or.inl ⟨c, by simp, ⟨hc, hacc.2 ⟨checkPointBy_empty e1, e1'⟩, ?_⟩, rfl⟩
        intro h2
        have := hb.2 h2
        cases this

/-- **C91**, the play-out policy: in every reachable game that is not paused, for every shuffle, it returns without panic a point of
the first `w` rows that `try_play` accepts and that is not an own eye, if there is one, and `Pass` otherwise. -/
theorem C91_random (h : Reach dbg n m g) (hps : g.passes ≠ 2) (hm : m < 65535) {ps v : List Coord}
    (e : g.pseudoLegals = .ok ps) (hv : v.Perm ps) :
    (∃ p, p.1 < n.w ∧ g.Candidate dbg n p ∧ g.fastPlayRandom dbg v = .ok (.play p.1 p.2)) ∨
      ((∀ p, p.1 < n.w → ¬ g.Candidate dbg n p) ∧ g.fastPlayRandom dbg v = .ok .pass) := by
  obtain ⟨hm1, hm2⟩ := pseudoLegals_mem h e
  rcases fastPlayRandom_ok h hps hm v (fun p hp => (hm1 p (hv.mem_iff.1 hp)).1) with ⟨p, h1, h2, h3⟩ | ⟨h1, h2⟩
  · exact Or.inl ⟨p, (hm1 p (hv.mem_iff.1 h1)).2, h2, h3⟩
  · refine Or.inr ⟨fun p hpw hp => h1 p ?_ hp, h2⟩
    exact hv.mem_iff.2 (hm2 p hp.1 hpw ((accepts_iff h hps hm hp.1).1 hp.2.1).1)

/-- **C46**. In every reachable game that is not paused, for every shuffle of the empty points, the play-out policy returns without
panic: an on-board point that `try_play` accepts and that is not an own eye, if there is one, and `Pass` otherwise. -/
theorem C46_fast_play_random {n : Nat} (h : Reach dbg n m g) (hps : g.passes ≠ 2) (hm : m < 65535) {ps v : List Coord}
    (e : g.pseudoLegals = .ok ps) (hv : v.Perm ps) :
    (∃ p, g.Candidate dbg n p ∧ g.fastPlayRandom dbg v = .ok (.play p.1 p.2)) ∨
      ((∀ p, ¬ g.Candidate dbg n p) ∧ g.fastPlayRandom dbg v = .ok .pass) :=
  (C91_random h hps hm e hv).imp (fun ⟨p, _, h⟩ => ⟨p, h⟩) (fun ⟨h1, h2⟩ => ⟨fun p hp => h1 p hp.1.1 hp, h2⟩)

/-- The rounds of a play-out: `k` rounds, each with some shuffle of the empty points, while the game is not over. -/
inductive Rounds (dbg : Bool) (g : Game) : Nat → Game → Prop
  | start : Rounds dbg g 0 g
  | round {k g1 g2 ps v} : Rounds dbg g k g1 → g1.isOver = false → g1.pseudoLegals = .ok ps → v.Perm ps →
      g1.playoutRound dbg v = .ok g2 → Rounds dbg g (k + 1) g2

theorem not_over_passes (h : g.isOver = false) : g.passes < 2 := by
  unfold Game.isOver at h
  split at h
  · cases h
  · simpa using h

/-- **C46**. A play-out from a legal game only makes moves `try_play` accepts (so all its games are legal games), and none of
its rounds panics, until 65535 rounds have been made; whatever the shuffles. -/
theorem C46_playout {k : Nat} {g' : Game} (h : Legal dbg n m g) (hr : Rounds dbg g k g') : m + k ≤ 65535 →
    Legal dbg n (m + k) g' ∧ (m + k < 65535 → g'.isOver = false → ∀ ps v, g'.pseudoLegals = .ok ps → v.Perm ps →
      ∃ mv g2, g'.tryPlay dbg mv = .ok (.none, g2) ∧ g'.playoutRound dbg v = .ok g2) := by
  have key : ∀ {m g}, Legal dbg n m g → m < 65535 → g.isOver = false → ∀ ps v, g.pseudoLegals = .ok ps → v.Perm ps →
      ∃ mv g2, mv.OnBoard n ∧ g.tryPlay dbg mv = .ok (.none, g2) ∧ g.playoutRound dbg v = .ok g2 := by
    intro m g h hm ho ps v e hv
    have hps := not_over_passes ho
    unfold Game.playoutRound
    obtain ⟨m', hm', hr⟩ := h.reach
    rcases C91_random hr (by omega) (by omega) e hv with ⟨p, _, hc, e2⟩ | ⟨_, e2⟩
    · obtain ⟨g2, e3⟩ := hc.2.1
      exact ⟨.play p.1 p.2, g2, hc.1, e3, by rw [e2, ok_bind, C13_accepted_is_play e3]⟩
    · have : ∃ g2, g.tryPlay dbg .pass = .ok (.none, g2) := by
        unfold Game.tryPlay Game.play
        rw [if_neg (by omega), decide_eq_true hps]
        exact ⟨_, rfl⟩
      obtain ⟨g2, e3⟩ := this
      exact ⟨.pass, g2, trivial, e3, by rw [e2, ok_bind, C13_accepted_is_play e3]⟩
  induction hr with
  | start =>
    intro _
    refine ⟨h, fun hm ho ps v e hv => ?_⟩
    obtain ⟨mv, g2, _, h2, h3⟩ := key h hm ho ps v e hv
    exact ⟨mv, g2, h2, h3⟩
  | @round k g1 g2 ps v _ ho e hv e2 ih =>
    intro hk
    have h1 := (ih (by omega)).1
    obtain ⟨mv, g3, a1, a2, a3⟩ := key h1 (by omega) ho ps v e hv
    rw [a3] at e2; cases e2
    have h2 : Legal dbg n (m + (k + 1)) g2 := .tryPlay h1 a1 a2
    refine ⟨h2, fun hm ho ps v e hv => ?_⟩
    obtain ⟨mv, g2, _, b2, b3⟩ := key h2 hm ho ps v e hv
    exact ⟨mv, g2, b2, b3⟩

theorem checkPointBy_fillEye (h : Reach dbg n m g) {p : Coord} (hp : OnBoard n p) (he : g.goban.getColor p = .ok none)
    (r : IllegalRules) : g.checkPointBy dbg p { r with fillEye := true } = .ok none ↔
      g.checkPointBy dbg p r = .ok none ∧ ¬ Spec.Eye n g.goban.view g.turn p := by
  have he' : g.goban.view p = none := (getColor_none h.inv hp).1 he
  obtain ⟨bs, e1⟩ := checkSuicide_total (dbg := dbg) (c := g.turn) h.inv hp
  obtain ⟨bk, e2, _⟩ := checkKo_ok (dbg := dbg) (c := g.turn) h.inv hp he'
  obtain ⟨be, e3, hy⟩ := checkEye_ok (dbg := dbg) (c := g.turn) h.inv hp
  rw [checkPointBy_eq he e1 e2 e3, checkPointBy_eq he e1 e2 e3, ← hy]
  dsimp only
  cases be <;> cases r.suicide && bs <;> cases r.ko && bk <;> cases r.fillEye <;> simp

/-- **C91**, `legals_moves`: in every reachable game that is not paused, the points of the first `w` rows that `try_play` accepts and
that are not own eyes, or if there is none a pass. -/
theorem C91_legals_moves (h : Reach dbg n m g) (hps : g.passes ≠ 2) (hm : m < 65535) : ∃ l, g.legalsMoves dbg = .ok l ∧
    (∀ x y, Move.play x y ∈ l ↔ x < n.w ∧ g.Candidate dbg n (x, y)) ∧ (∀ c, Move.resign c ∉ l) ∧
    (Move.pass ∈ l ↔ (∀ p, p.1 < n.w → ¬ g.Candidate dbg n p) ∧ g.isOver = false) := by
  obtain ⟨l, e, hl⟩ := (C91_legals_by h { g.rule.flagIllegal with fillEye := true }).total (by omega)
  have hmem : ∀ p, p ∈ l ↔ p.1 < n.w ∧ g.Candidate dbg n p := by
    intro p
    rw [hl, List.mem_filter, mem_scan h.inv.good, decide_eq_true_eq]
    unfold Game.Candidate
    constructor
    · rintro ⟨⟨h1, hw⟩, h2, h3⟩
      have := (checkPointBy_fillEye h h1 h2 _).1 h3
      exact ⟨hw, h1, (accepts_iff h hps hm h1).2 ⟨h2, this.1⟩, this.2⟩
    · rintro ⟨hw, h1, h2, h3⟩
      have := (accepts_iff h hps hm h1).1 h2
      exact ⟨⟨h1, hw⟩, this.1, (checkPointBy_fillEye h h1 this.1 _).2 ⟨this.2, h3⟩⟩
  unfold Game.legalsMoves
  rw [e, ok_bind]
  dsimp only
  cases l with
  | nil =>
    have hno : ∀ p, p.1 < n.w → ¬ g.Candidate dbg n p := fun p hw hp => by simpa using (hmem p).2 ⟨hw, hp⟩
    have hno' : ∀ x y, x < n.w → ¬ g.Candidate dbg n (x, y) := fun x y => hno (x, y)
    cases ho : g.isOver with
    | true => exact ⟨[], rfl, fun x y => ⟨(fun h => by cases h), fun h => absurd h.2 (hno' x y h.1)⟩, by simp, by simp⟩
    | false => exact ⟨[.pass], rfl, fun x y => ⟨fun h => by simp at h, fun h => absurd h.2 (hno' x y h.1)⟩, by simp, by simpa using hno'⟩
  | cons p l =>
    refine ⟨_, rfl, ?_, by simp, ?_⟩
    · intro x y
      rw [show x < n.w ∧ _ ↔ _ from (hmem (x, y)).symm, List.mem_map]
      constructor
      · rintro ⟨q, hq, e⟩
        injection e with e1 e2
        have : q = (x, y) := Prod.ext e1 e2
        rw [← this]; exact hq
      · intro h; exact ⟨_, h, rfl⟩
    · constructor
      · intro h
        rw [List.mem_map] at h
        obtain ⟨_, _, h⟩ := h
        cases h
      · rintro ⟨h, _⟩
        have := (hmem p).1 (by simp)
        exact absurd this.2 (h p this.1)

/-- **C46**, `legals_moves`: in every reachable game that is not paused, the points `try_play` accepts that are not own eyes, row by
row, or if there is none a pass. -/
theorem C46_legals_moves {n : Nat} (h : Reach dbg n m g) (hps : g.passes ≠ 2) (hm : m < 65535) : ∃ l, g.legalsMoves dbg = .ok l ∧ l.Nodup ∧
    (∀ x y, Move.play x y ∈ l ↔ g.Candidate dbg n (x, y)) ∧ (∀ c, Move.resign c ∉ l) ∧
    (Move.pass ∈ l ↔ (∀ p, ¬ g.Candidate dbg n p) ∧ g.isOver = false) := by
  obtain ⟨l, e, h1, h2, h3⟩ := C91_legals_moves h hps hm
  refine ⟨l, e, ?_, fun x y => ?_, h2, ?_⟩
  · obtain ⟨ps, e1, _, hnd⟩ := (C17_legals_by h { g.rule.flagIllegal with fillEye := true }).total (by omega)
    unfold Game.legalsMoves at e
    rw [e1, ok_bind] at e
    dsimp only at e
    split at e
    · split at e <;> cases e <;> simp
    · cases e
      refine List.Pairwise.map _ ?_ hnd
      intro a b hab h
      apply hab
      injection h with h1 h2
      exact Prod.ext h1 h2
  · rw [h1]
    exact ⟨fun h => h.2, fun h => ⟨h.1.1, h⟩⟩
  · rw [h3]
    exact ⟨fun h => ⟨fun p hp => h.1 p hp.1.1 hp, h.2⟩, fun h => ⟨fun p _ => h.1 p, h.2⟩⟩

/-- **C46**: on any game, `legals_moves` is empty only if the game is over. -/
theorem C46_empty_over (e : g.legalsMoves dbg = .ok []) : g.isOver = true := by
  unfold Game.legalsMoves at e
  obtain ⟨l, _, e⟩ := bind_eq_ok e
  dsimp only at e
  split at e
  · split at e
    · assumption
    · cases e
  · rename_i h
    cases l with
    | nil => exact absurd rfl h
    | cons a l => cases e

/-- Non-vacuity of C46: Black to move may not fill the own eye (0, 0); two shuffles, two moves; a round. -/
example : ∃ g, Legal true 3 6 g ∧ (g.passes = 1 ∧ g.isOver = false ∧
    g.pseudoLegals = .ok [(0, 0), (0, 2), (1, 2), (2, 0), (2, 1)] ∧
    g.fastPlayRandom true [(0, 0), (0, 2), (1, 2), (2, 0), (2, 1)] = .ok (.play 0 2) ∧
    g.fastPlayRandom true [(2, 1), (0, 0), (1, 2), (2, 0), (0, 2)] = .ok (.play 2 1) ∧
    g.legalsMoves true = .ok [.play 0 2, .play 1 2, .play 2 0, .play 2 1] : Bool) = true :=
  mkGame_exists (rule := JAPANESE) (l := [.try_ (.play 0 1), .try_ (.play 2 2), .try_ (.play 1 0), .try_ .pass,
    .try_ (.play 1 1), .try_ .pass]) (by decide) (by decide +kernel)

/-! ## C51 -/

/-- The full statement of **C51**: every finished play-out can be evaluated. Refuted by `C51_false`. -/
def C51Full : Prop := ∀ (dbg : Bool) (n m : Nat) (g : Game) (ord : List Point → List Point) (turn : Color), Legal dbg n m g →
  (∀ l, (ord l).Perm l) → g.isOver = true → ∃ r, g.evaluateLeaf dbg ord turn = .ok r ∧ r ≤ 1

/-- **C84**: the evaluation returns 1 if the side has won and 0 if the other has, and panics if the game is drawn or not over. -/
theorem C84_evaluate_leaf (h : Reach dbg n m g) {ord : List Point → List Point} (hord : ∀ l, (ord l).Perm l)
    (turn : Color) : ∃ o, g.getOutcome dbg ord = .ok o ∧ g.evaluateLeaf dbg ord turn =
      match o.bind EndGame.getWinner with
      | some c => .ok (if c = turn then 1 else 0)
      | none => panic := by
  obtain ⟨o, e, _⟩ := C22_none_iff h hord
  refine ⟨o, e, ?_⟩
  unfold Game.evaluateLeaf Game.traitWinner
  rw [e, ok_bind]
  cases o with
  | none => rfl
  | some o => cases o <;> rfl

/-- **C51** for games with a winner. Missing: draws, for which it is false. -/
theorem C51_evaluate_leaf_partial (h : Reach dbg n m g) {ord : List Point → List Point} (hord : ∀ l, (ord l).Perm l)
    (turn : Color) {o : EndGame} {c : Color} (eo : g.getOutcome dbg ord = .ok (some o)) (hw : o.getWinner = some c) :
    g.evaluateLeaf dbg ord turn = .ok (if c = turn then 1 else 0) := by
  obtain ⟨o', e, h'⟩ := C84_evaluate_leaf h hord turn
  rw [eo] at e
  cases e
  rw [h', show (some o).bind EndGame.getWinner = some c from hw]

/-- **C51** is false: a drawn game panics. -/
theorem C51_false : ¬ C51Full := by
  intro h
  have : ∃ g, Legal true 3 2 g ∧ (g.isOver ∧ g.evaluateLeaf true id .black = panic : Bool) = true :=
    mkGame_exists (rule := JAPANESE) (l := [.setKomi (.fin 0), .try_ .pass, .try_ .pass]) (by decide) (by decide +kernel)
  obtain ⟨g, hg, hr⟩ := this
  simp only [decide_eq_true_eq] at hr
  obtain ⟨r, e, _⟩ := h true _ _ g id .black hg (fun l => .refl _) hr.1
  rw [hr.2] at e
  cases e

/-! ## C45 -/

/-- An eye of either side. -/
def AnyEye (n : Dim) (pos : Pos) (p : Coord) : Prop := Spec.Eye n pos .black p ∨ Spec.Eye n pos .white p

/-- `p` is next to a stone of the group with index `k`. -/
def Goban.Touches (dbg : Bool) (g : Goban) (k : Nat) (p : Coord) : Prop :=
  ∃ l s, g.chainStonesIdx dbg k = .ok l ∧ s ∈ l ∧ Adj p s.coord

open Classical in
/-- The number of eyes of the group with index `k`. -/
noncomputable def eyesOf (dbg : Bool) (n : Dim) (g : Goban) (k : Nat) : Nat :=
  ((Spec.points n).filter (fun p => decide (AnyEye n g.view p ∧ g.Touches dbg k p))).length

open Classical in
/-- The eyes of the group with index `k` in the first `w` rows, each counted `h / w` times. On square boards the number of its eyes. -/
noncomputable def eyesSeen (dbg : Bool) (n : Dim) (g : Goban) (k : Nat) : Nat :=
  n.h / n.w * ((Spec.points n).filter (fun p => decide (p.1 < n.w ∧ AnyEye n g.view p ∧ g.Touches dbg k p))).length

theorem eyesSeen_square (n : Nat) (b : Goban) (k : Nat) : eyesSeen dbg n b k = eyesOf dbg n b k := by
  classical
  unfold eyesSeen eyesOf
  rcases Nat.eq_zero_or_pos n with rfl | hn
  · simp [Spec.points]
  · rw [show (n : Dim).h / (n : Dim).w = 1 from Nat.div_self hn, Nat.one_mul]
    congr 1
    apply filter_congr'
    intro p hp
    have hp := (mem_points.1 hp).1
    rw [decide_eq_decide]
    exact ⟨fun h => h.2, fun h => ⟨hp, h⟩⟩

/-- The full statement of **C45**: the live groups with fewer than two eyes. Refuted by `C45_false`. -/
def C45Full : Prop := ∀ (dbg : Bool) (n m : Nat) (g : Game), Legal dbg n m g →
  ∃ l, g.floatingStones dbg = .ok l ∧ ∀ k, k ∈ l ↔ g.goban.Live k ∧ eyesOf dbg n g.goban k < 2

theorem count_nodup {α} [DecidableEq α] {l : List α} (h : l.Nodup) (a : α) : l.count a = if a ∈ l then 1 else 0 :=
  List.Nodup.count h

theorem count_flatten_filter {α} {f : α → List Nat} (hnd : ∀ a, (f a).Nodup) (k : Nat) : ∀ (l : List α),
    (l.map f).flatten.count k = (l.filter (fun a => decide (k ∈ f a))).length
  | [] => rfl
  | a :: l => by
    rw [List.map_cons, List.flatten_cons, List.count_append, count_nodup (hnd a), count_flatten_filter hnd k l,
      List.filter_cons]
    by_cases h : k ∈ f a
    · simp [h]; omega
    · simp [h]

theorem eyeChains_ok (h : Reach dbg n m g) : ∃ occ, g.eyeChains dbg = .ok occ ∧
    ∀ k, occ.count k = eyesSeen dbg n g.goban k := by
  classical
  have hb : Board dbg n m g.goban := h.spec.board
  have hc : ∀ p, ∃ ks, OnBoard n p → g.goban.connectedGroupsIdx dbg (twoTo1dim g.goban.size p) = .ok ks ∧ ks.Nodup ∧
      ∀ k, k ∈ ks ↔ g.goban.Touches dbg k p := by
    intro p
    by_cases hp : OnBoard n p
    · obtain ⟨ks, h1⟩ := C32_connected_groups hb hp
      exact ⟨ks, fun _ => h1⟩
    · exact ⟨[], fun h => absurd h hp⟩
  choose ks hks using hc
  let f : Coord → List Nat := fun p => if OnBoard n p ∧ AnyEye n g.goban.view p then ks p else []
  have hf : ∀ a, (f a).Nodup := by
    intro a
    show (if _ then _ else _ : List Nat).Nodup
    split
    · rename_i ha; exact (hks a ha.1).2.1
    · simp
  unfold Game.eyeChains
  unfold Game.pseudoLegals
  obtain ⟨L, eL, hmem⟩ := getEmptyCoords_any h.inv
  have hkf : ∀ k p, OnBoard n p → (k ∈ f p ↔ AnyEye n g.goban.view p ∧ g.goban.Touches dbg k p) := by
    intro k p hp
    show k ∈ (if _ then _ else _ : List Nat) ↔ _
    constructor
    · intro h1
      split at h1
      · rename_i hc; exact ⟨hc.2, ((hks p hp).2.2 k).1 h1⟩
      · cases h1
    · rintro ⟨h1, h2⟩
      rw [if_pos ⟨hp, h1⟩]
      exact ((hks p hp).2.2 k).2 h2
  rw [eL, ok_bind, mapM_ok (h := f)]
  · refine ⟨_, rfl, fun k => ?_⟩
    rw [count_flatten_filter hf, emptyCoords_filter hb eL (fun p hp hQ => (getColor_none h.inv hp).2 (by
      rcases ((hkf k p hp).1 (of_decide_eq_true hQ)).1 with h1 | h1 <;> exact h1.1)), scan_filter_length h.inv.good]
    unfold eyesSeen
    congr 2
    apply filter_congr'
    intro p hp
    rw [Bool.eq_iff_iff, Bool.and_eq_true, decide_eq_true_eq, decide_eq_true_eq, decide_eq_true_eq, hkf k p (mem_points.1 hp)]
  · intro p hp
    have hp : OnBoard n p ∧ True := ⟨hmem p hp, trivial⟩
    obtain ⟨b1, e1, h1⟩ := checkEye_ok (dbg := dbg) (c := .black) h.inv hp.1
    obtain ⟨b2, e2, h2⟩ := checkEye_ok (dbg := dbg) (c := .white) h.inv hp.1
    rw [e1, ok_bind]
    have hA : AnyEye n g.goban.view p ↔ b1 = true ∨ b2 = true := by
      unfold AnyEye; rw [h1, h2]
    have hyes : AnyEye n g.goban.view p → f p = ks p := fun ha => if_pos ⟨hp.1, ha⟩
    have hno : ¬ AnyEye n g.goban.view p → f p = [] := fun ha => if_neg (fun h => ha h.2)
    cases b1 with
    | true =>
      rw [hyes (hA.2 (Or.inl rfl))]
      exact (hks p hp.1).1
    | false =>
      simp only [Bool.false_eq_true, if_false]
      rw [e2, ok_bind]
      cases b2 with
      | true =>
        rw [hyes (hA.2 (Or.inr rfl))]
        exact (hks p hp.1).1
      | false =>
        rw [hno (fun h3 => by simpa using hA.1 h3)]
        rfl

/-- **C91**, `get_floating_stones`: in increasing order and without repetition the live groups for which at least three eyes are
counted and whose index is smaller than the number of groups. Counted are the eyes in the first `w` rows, each `h / w` times. -/
theorem C91_floating_stones (h : Reach dbg n m g) : ∃ l, g.floatingStones dbg = .ok l ∧ l.Pairwise (· < ·) ∧
    ∀ k, k ∈ l ↔ g.goban.Live k ∧ 3 ≤ eyesSeen dbg n g.goban k ∧ k < Spec.groupCount n g.goban.view := by
  obtain ⟨occ, e, hocc⟩ := eyeChains_ok h
  unfold Game.floatingStones
  rw [e, ok_bind]
  refine ⟨_, rfl, List.pairwise_lt_range.filter _, fun k => ?_⟩
  rw [List.mem_filter, List.mem_range, decide_eq_true_eq, hocc, chains_number h.inv]
  constructor
  · rintro ⟨h1, h2⟩
    refine ⟨?_, by omega, h1⟩
    classical
    unfold eyesSeen at h2
    have : 0 < ((Spec.points n).filter (fun p => decide (p.1 < n.w ∧ AnyEye n g.goban.view p ∧ g.goban.Touches dbg k p))).length := by
      rcases Nat.eq_zero_or_pos ((Spec.points n).filter (fun p => decide (p.1 < n.w ∧ AnyEye n g.goban.view p ∧
        g.goban.Touches dbg k p))).length with h0 | h0
      · rw [h0] at h2; omega
      · exact h0
    obtain ⟨p, hp⟩ := List.exists_mem_of_length_pos this
    rw [List.mem_filter, decide_eq_true_eq] at hp
    obtain ⟨l, s, e, _⟩ := hp.2.2.2
    unfold Goban.chainStonesIdx at e
    obtain ⟨grp, e1, _⟩ := bind_eq_ok e
    exact ⟨grp, e1⟩
  · rintro ⟨_, h2, h3⟩
    exact ⟨h3, by omega⟩

/-- **C85**, what `get_floating_stones` returns: in increasing order and without repetition the live groups with at least
*three* eyes whose index is smaller than the number of groups. -/
theorem C85_floating_stones {n : Nat} (h : Reach dbg n m g) : ∃ l, g.floatingStones dbg = .ok l ∧ l.Pairwise (· < ·) ∧
    ∀ k, k ∈ l ↔ g.goban.Live k ∧ 3 ≤ eyesOf dbg n g.goban k ∧ k < Spec.groupCount n g.goban.view := by
  obtain ⟨l, e, h1, h2⟩ := C91_floating_stones h
  exact ⟨l, e, h1, fun k => by rw [h2, eyesSeen_square]⟩

/-- On the 6 × 3 board the two eyes of the black group are counted four times, so the group is returned. On the 3 × 3 board it is not. -/
example : (∃ g, Legal true ⟨6, 3⟩ 7 g ∧ (g.eyeChains true = .ok [0, 0, 0, 0] ∧ g.floatingStones true = .ok [0] : Bool) = true) ∧
    ∃ g, Legal true 3 7 g ∧ (g.eyeChains true = .ok [0, 0] ∧ g.floatingStones true = .ok [] : Bool) = true :=
  ⟨mkGame_exists (n := ⟨6, 3⟩) (rule := JAPANESE) (l := [.try_ (.play 1 0), .try_ .pass, .try_ (.play 1 1), .try_ .pass,
    .try_ (.play 1 2), .try_ .pass, .try_ (.play 0 1)]) (by decide) (by decide +kernel),
  mkGame_exists (rule := JAPANESE) (l := [.try_ (.play 1 0), .try_ .pass, .try_ (.play 1 1), .try_ .pass,
    .try_ (.play 1 2), .try_ .pass, .try_ (.play 0 1)]) (by decide) (by decide +kernel)⟩

/-- **C45**, what holds: the call returns, and lists live groups, each once. Missing: the documented meaning, groups with fewer than
two eyes, which is refuted. -/
theorem C45_floating_stones_partial (h : Reach dbg n m g) : ∃ l, g.floatingStones dbg = .ok l ∧ l.Nodup ∧ ∀ k ∈ l, g.goban.Live k := by
  obtain ⟨l, e, hp, hl⟩ := C91_floating_stones h
  exact ⟨l, e, hp.imp (fun h => Nat.ne_of_lt h), fun k hk => ((hl k).1 hk).1⟩

theorem stonesGone_ok {n : Dim} {final : Goban} (hf : Inv n final) : ∀ (l : List Stone), (∀ s ∈ l, OnBoard n s.coord) →
    ∃ b, Game.stonesGone final l = .ok b ∧ (b = true ↔ ∃ s ∈ l, final.view s.coord ≠ some s.color)
  | [], _ => ⟨false, rfl, by simp⟩
  | s :: l, h => by
    obtain ⟨b, e, hb⟩ := stonesGone_ok hf l (fun s hs => h s (by simp [hs]))
    unfold Game.stonesGone
    rw [hf.getColor_view (h s (by simp)), ok_bind]
    by_cases hc : final.view s.coord ≠ some s.color
    · rw [if_pos hc]
      exact ⟨true, rfl, by simp [hc]⟩
    · rw [if_neg hc]
      exact ⟨b, e, by rw [hb]; simp at hc; simp [hc]⟩

/-- **C85**, the lookups: whatever board the search ends with, the last part of `dead_stones` does not panic, and returns the
floating groups of which the final board no longer shows some stone. -/
theorem C85_dead_stones (h : Reach dbg n m g) {m' : Nat} {final : Goban} (hf : Board dbg n m' final) :
    ∃ fl l, g.floatingStones dbg = .ok fl ∧ g.deadChains dbg final = .ok l ∧ l.Nodup ∧
      ∀ k, k ∈ l ↔ k ∈ fl ∧ ∃ ss s, g.goban.chainStonesIdx dbg k = .ok ss ∧ s ∈ ss ∧ final.getColor s.coord ≠ .ok (some s.color) := by
  obtain ⟨fl, e, _, hfl⟩ := C91_floating_stones h
  have hb : Board dbg n m g.goban := h.spec.board
  have hI := h.inv
  unfold Game.deadChains
  rw [e, ok_bind]
  have key : ∀ (l acc : List Nat), (∀ k ∈ l, g.goban.Live k) → acc.Nodup → ∃ r, l.foldlM (fun acc k => do
      let ss ← g.goban.chainStonesIdx dbg k
      if ← Game.stonesGone final ss then .ok (if acc.contains k then acc else acc ++ [k]) else .ok acc) acc = (.ok r : M _) ∧ r.Nodup ∧
      ∀ k, k ∈ r ↔ k ∈ acc ∨ k ∈ l ∧ ∃ ss s, g.goban.chainStonesIdx dbg k = .ok ss ∧ s ∈ ss ∧
        final.getColor s.coord ≠ .ok (some s.color) := by
    intro l
    induction l with
    | nil => intro acc _ hnd; exact ⟨acc, rfl, hnd, by simp⟩
    | cons k l ih =>
      intro acc hl hnd
      obtain ⟨grp, hg⟩ := hl k (by simp)
      obtain ⟨ss, hs⟩ := group_spec (dbg := dbg) hI (live_ch.1 hg)
      have hon : ∀ s ∈ ss, OnBoard n s.coord := fun s hs' => ((hs.mem s.coord).1 (List.mem_map_of_mem hs')).1
      obtain ⟨b, eb, hb⟩ := stonesGone_ok hf.inv.1 ss hon
      have hbk : b = true ↔ ∃ ss s, g.goban.chainStonesIdx dbg k = .ok ss ∧ s ∈ ss ∧
          final.getColor s.coord ≠ .ok (some s.color) := by
        rw [hb]
        constructor
        · rintro ⟨s, h1, h2⟩
          exact ⟨ss, s, hs.stones, h1, by rw [hf.inv.1.getColor_view (hon s h1)]; exact fun h => h2 (Except.ok.inj h)⟩
        · rintro ⟨ss', s, h1, h2, h3⟩
          rw [hs.stones] at h1; cases h1
          refine ⟨s, h2, fun h => h3 ?_⟩
          rw [hf.inv.1.getColor_view (hon s h2), h]
      rw [List.foldlM_cons, hs.stones, ok_bind, eb, ok_bind]
      have hl' := fun x hx => hl x (List.mem_cons_of_mem _ hx)
      cases b with
      | true =>
        simp only [if_true, ok_bind]
        obtain ⟨r, e1, h1, h2⟩ := ih (if acc.contains k then acc else acc ++ [k]) hl' (by
          split
          · exact hnd
          · rename_i hc
            rw [List.nodup_append]
            refine ⟨hnd, by simp, ?_⟩
            intro a ha b hb hab
            rw [List.mem_singleton] at hb
            subst hb; subst hab
            exact hc (by simpa using ha))
        refine ⟨r, e1, h1, fun x => ?_⟩
        rw [h2]
        have : x ∈ (if acc.contains k then acc else acc ++ [k]) ↔ x ∈ acc ∨ x = k := by
          split
          · rename_i hc
            constructor
            · exact Or.inl
            · rintro (h | h)
              · exact h
              · subst h; simpa using hc
          · simp
        rw [this]
        have hk := hbk.1 rfl
        constructor
        · rintro ((h | h) | h)
          · exact Or.inl h
          · subst h; exact Or.inr ⟨by simp, hk⟩
          · exact Or.inr ⟨by simp [h.1], h.2⟩
        · rintro (h | ⟨h, h'⟩)
          · exact Or.inl (Or.inl h)
          · rw [List.mem_cons] at h
            rcases h with h | h
            · exact Or.inl (Or.inr h)
            · exact Or.inr ⟨h, h'⟩
      | false =>
        simp only [Bool.false_eq_true, if_false, ok_bind]
        obtain ⟨r, e1, h1, h2⟩ := ih acc hl' hnd
        refine ⟨r, e1, h1, fun x => ?_⟩
        rw [h2]
        constructor
        · rintro (h | h)
          · exact Or.inl h
          · exact Or.inr ⟨by simp [h.1], h.2⟩
        · rintro (h | ⟨h, h'⟩)
          · exact Or.inl h
          · rw [List.mem_cons] at h
            rcases h with h | h
            · subst h
              have := hbk.2 h'
              cases this
            · exact Or.inr ⟨h, h'⟩
  obtain ⟨r, e1, h1, h2⟩ := key fl [] (fun k hk => ((hfl k).1 hk).1) (by simp)
  exact ⟨fl, r, rfl, e1, h1, fun k => by rw [h2]; simp⟩

/-- Black has a living group with three eyes along the edge, White a group without any. -/
def exEyes : List GOp :=
  [.try_ (.play 1 0), .try_ (.play 4 0), .try_ (.play 1 1), .try_ (.play 4 1), .try_ (.play 1 2), .try_ (.play 4 2),
   .try_ (.play 1 3), .try_ (.play 4 3), .try_ (.play 1 4), .try_ (.play 4 4), .try_ (.play 0 1), .try_ (.play 3 0),
   .try_ (.play 0 3)]

/-- **C45** is false: the black group (index 0) with its three eyes is called floating, the white group (index 1) without eyes
is not. -/
theorem C45_false_witness (dbg : Bool) : ∃ g, Legal dbg 5 13 g ∧ (g.floatingStones dbg = .ok [0] ∧
    g.goban.Live 1 ∧ 3 ≤ eyesOf dbg 5 g.goban 0 ∧ eyesOf dbg 5 g.goban 1 = 0) := by
  have : ∃ g, Legal dbg 5 13 g ∧ (g.floatingStones dbg = .ok [0] ∧ g.eyeChains dbg = .ok [0, 0, 0] ∧
      (okAnd (g.goban.chains.chainAt 1) (fun _ => true) = true) : Bool) = true :=
    mkGame_exists (rule := JAPANESE) (l := exEyes) (by decide) (by cases dbg <;> decide +kernel)
  obtain ⟨g, hg, hr⟩ := this
  simp only [decide_eq_true_eq] at hr
  obtain ⟨m', _, hreach⟩ := hg.reach
  obtain ⟨occ, e, hocc⟩ := eyeChains_ok hreach
  rw [hr.2.1] at e
  cases e
  refine ⟨g, hg, hr.1, ?_, ?_, ?_⟩
  · obtain ⟨grp, h, _⟩ := okAnd_iff.1 hr.2.2
    exact ⟨grp, h⟩
  · have h := eyesSeen_square (dbg := dbg) 5 g.goban 0
    exact (show List.count 0 [0, 0, 0] = eyesOf dbg 5 g.goban 0 from (hocc 0).trans h) ▸ (by decide : 3 ≤ List.count 0 [0, 0, 0])
  · have h := eyesSeen_square (dbg := dbg) 5 g.goban 1
    exact ((hocc 1).trans h).symm

theorem C45_false : ¬ C45Full := by
  intro h
  obtain ⟨g, hg, h1, h2, h3, h4⟩ := C45_false_witness true
  have h4 : eyesOf true ((5 : Nat) : Dim) g.goban 1 = 0 := h4
  obtain ⟨l, e, hl⟩ := h true 5 13 g hg
  rw [h1] at e; cases e
  have := (hl 1).2 ⟨h2, by omega⟩
  simp at this

end Model
