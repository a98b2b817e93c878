import Verif.Proofs.AttackFree
import Verif.Props.Attack
/-!
# Benson's criterion is exact where suicide is allowed: C124
-/

namespace Model
open Spec (OnBoard Adj Linked HasLiberty NoDead SameOn Pos State Lives LivingFree)

variable {dbg : Bool} {n : Dim} {m : Nat} {o : Option EndGame} {g : Game} {s : State} {c : Color}

/-- What is kept during the attack of `c` where suicide is allowed. -/
structure Invested (dbg : Bool) (n : Dim) (m : Nat) (o : Option EndGame) (c : Color) (g : Game) (s : State) : Prop where
  sim : Sim dbg n m o g s
  turn : s.turn = c.opp
  passes : s.passes = 0
  suicide : g.rule.flagIllegal.suicide = false
  fillEye : g.rule.flagIllegal.fillEye = false
  superko : g.rule.flagIllegal.superko = false

/-- One round: the pass and any stone on an empty point are accepted. -/
theorem Invested.round (h : Invested dbg n m o c g s) (hm : m < 65535) {p : Coord} (hp : OnBoard n p) (he : s.pos p = none) :
    ∃ g1 g2 s2 m2, g.tryPlay dbg .pass = .ok (none, g1) ∧ g1.tryPlay dbg (.play p.1 p.2) = .ok (none, g2) ∧
      m2 ≤ m + 1 ∧ Invested dbg n m2 o c g2 s2 ∧ s2.pos = Spec.play n true s.pos p c := by
  obtain ⟨h, ht, hps, hsu, hfe, hsk⟩ := h
  obtain ⟨g1, e1, h1, hr1⟩ := h.pass (by omega)
  have e1' : g.tryPlay dbg .pass = .ok (none, g1) := by
    unfold Game.tryPlay
    rw [h.passes, hps]
    simp only [e1, ok_bind]
    rfl
  dsimp only [Spec.apply] at h1
  have hans : Spec.answerSeen n g1.rule.flagIllegal.forbidden { s with turn := s.turn.opp, passes := s.passes + 1, before := none }
      (.play p) = .ok := by
    rw [hr1]
    unfold Spec.answerSeen
    dsimp only
    rw [hps]
    rw [if_neg (by omega), if_neg (by simp [he]), if_neg, if_neg, if_neg, if_neg]
    · rintro ⟨h2, _⟩
      rw [show g.rule.flagIllegal.forbidden.superko = g.rule.flagIllegal.superko from rfl, hsk] at h2; cases h2
    · rintro ⟨h2, _⟩
      rw [show g.rule.flagIllegal.forbidden.fillEye = g.rule.flagIllegal.fillEye from rfl, hfe] at h2; cases h2
    · rintro ⟨_, ⟨b, h2, _⟩, _⟩; cases h2
    · rintro ⟨h2, _⟩
      rw [show g.rule.flagIllegal.forbidden.suicide = g.rule.flagIllegal.suicide from rfl, hsu] at h2; cases h2
  obtain ⟨px, py⟩ := p
  obtain ⟨g2, e2, ⟨m2, hm2, h2⟩, hf2⟩ := h1.accept (op := .try_ (.play px py)) hm (by dsimp only; omega) hp hans
  dsimp only [GOp.call, Move.call, Spec.apply] at h2
  have hsu' : g1.rule.flagIllegal.forbidden.suicide = false := by rw [hr1]; exact hsu
  rw [hsu', ht, Color.opp_opp] at h2
  exact ⟨g1, g2, _, m2, e1', e2, hm2, ⟨h2, rfl, rfl, by rw [hf2, hr1]; exact hsu, by rw [hf2, hr1]; exact hfe,
    by rw [hf2, hr1]; exact hsk⟩, rfl⟩

theorem countOf_lt {a b : Pos} {d : Color} {p : Coord} (hp : OnBoard n p) (ha : a p = some d) (hb : b p ≠ some d)
    (hsub : ∀ q, OnBoard n q → b q = some d → a q = some d) : Spec.count n b (some d) < Spec.count n a (some d) := by
  unfold Spec.count
  have h1 : (Spec.points n).filter (fun q => b q = some d) =
      ((Spec.points n).filter (fun q => a q = some d)).filter (fun q => b q = some d) := by
    rw [List.filter_filter]
    refine List.filter_congr fun q hq => ?_
    have := hsub q (mem_points.1 hq)
    by_cases h : b q = some d <;> by_cases h' : a q = some d <;> simp_all
  rw [h1, List.length_filter_lt_length_iff_exists]
  exact ⟨p, by simp [mem_points.2 hp, ha], by simp [hb]⟩

theorem work_le {pos : Pos} {d : Color} {t : Coord} : work n pos d t ≤ 2 * n.area := by
  unfold work
  rw [← points_length n]
  induction Spec.points n with
  | nil => exact Nat.zero_le _
  | cons a l ih =>
    have := toDo_le (n := n) (pos := pos) (d := d) (t := t) (q := a)
    simp only [List.map_cons, List.sum_cons, List.length_cons]; omega

/-- The attack until the first stones are taken. -/
theorem Invested.first : ∀ (k : Nat) {m : Nat} {g : Game} {s : State} {t : Coord}, Invested dbg n m o c g s →
    OnBoard n t → s.pos t = some c.opp → AtMostOne n s.pos true c.opp t → work n s.pos c.opp t ≤ k → m + k < 65535 →
    ∃ j g' s' m', j ≤ k ∧ Siege dbg n g j g' ∧ m' ≤ m + j ∧ Invested dbg n m' o c g' s' ∧
      Spec.count n s'.pos (some c.opp) < Spec.count n s.pos (some c.opp) ∧
      (∀ q, OnBoard n q → s.pos q = some c.opp → s'.pos q = some c.opp ∨ s'.pos q = none) ∧
      ∀ q, LivingFree n s'.pos c.opp q → LivingFree n s.pos c.opp q := by
  intro k
  induction k with
  | zero =>
    intro m g s t h ht hv hw hk _
    obtain ⟨p, hlib, hmv⟩ := free_move h.sim.noDead ht hv hw
    have : 0 < work n s.pos c.opp t := by
      have h0 : 0 < toDo n s.pos c.opp t p := by unfold toDo; rw [if_pos hlib.2.1]; omega
      have := sum_lt (f := fun _ => 0) (fun q _ => Nat.zero_le _) ⟨p, mem_points.2 hlib.1, h0⟩
      unfold work; omega
    omega
  | succ k ih =>
    intro m g s t h ht hv hw hk hm
    obtain ⟨p, hlib, hmv⟩ := free_move h.sim.noDead ht hv hw
    obtain ⟨hsub, hcap, hprog⟩ := free_progress h.sim.noDead ht hv hlib hmv
    obtain ⟨g1, g2, s2, m2, e1, e2, hm2, h2, hpos⟩ := h.round (by omega) hlib.1 hlib.2.1
    rw [← hpos] at hsub hcap hprog
    have hback : ∀ q, LivingFree n s2.pos c.opp q → LivingFree n s.pos c.opp q := by
      rintro q ⟨X, Rs, hL, hX⟩
      exact ⟨X, _, lives_back hsub (fun q h3 h4 h5 => (hcap q h3 h4 h5).2) hL, hX⟩
    have hkeep : ∀ q, OnBoard n q → s.pos q = some c.opp → s2.pos q = some c.opp ∨ s2.pos q = none := by
      intro q hq hqv
      by_cases h3 : s2.pos q = some c.opp
      · exact Or.inl h3
      · exact Or.inr (hcap q hq hqv h3).1
    rcases hprog with ⟨q, hq, hqv, hqn⟩ | ⟨hst, hlt⟩
    · exact ⟨1, g2, s2, m2, by omega, .round .start e1 hlib.1 e2, hm2, h2, countOf_lt hq hqv hqn hsub, hkeep, hback⟩
    · obtain ⟨j, g', s', m', hj, hsg, hm', h', hlt', hkeep', hback'⟩ :=
        ih h2 ht ((hst t ht).1 hv) (hw.congr hst ht hv) (by omega) (by omega)
      have heq : Spec.count n s2.pos (some c.opp) = Spec.count n s.pos (some c.opp) := by
        unfold Spec.count
        congr 1
        refine List.filter_congr fun q hq => ?_
        exact decide_eq_decide.2 (hst q (mem_points.1 hq)).symm
      refine ⟨j + 1, g', s', m', by omega, hsg.front e1 hlib.1 e2, by omega, h', by omega, fun q hq hqv => ?_,
        fun q hq => hback q (hback' q hq)⟩
      exact hkeep' q hq ((hst q hq).1 hqv)

theorem Siege.trans {j k : Nat} {g0 g1 g2 : Game} (h1 : Siege dbg n g0 j g1) (h2 : Siege dbg n g1 k g2) : Siege dbg n g0 (j + k) g2 := by
  induction h2 with
  | start => exact h1
  | round _ e1 hp e2 ih => exact .round ih e1 hp e2

theorem countOf_pos {pos : Pos} {d : Color} {x : Coord} (hx : OnBoard n x) (hv : pos x = some d) : 0 < Spec.count n pos (some d) := by
  have : x ∈ (Spec.points n).filter (fun q => pos q = some d) := by simp [mem_points.2 hx, hv]
  exact List.length_pos_of_mem this

/-- The attack on one stone, by induction on the stones of its colour. -/
theorem Invested.take (x : Coord) (hx : OnBoard n x) : ∀ (k : Nat) {m : Nat} {g : Game} {s : State}, Invested dbg n m o c g s →
    Spec.count n s.pos (some c.opp) ≤ k → m + 2 * n.area * k < 65535 → s.pos x = some c.opp → ¬ LivingFree n s.pos c.opp x →
    ∃ j g', j ≤ 2 * n.area * k ∧ Siege dbg n g j g' ∧ g'.goban.getColor x = .ok none := by
  intro k
  induction k with
  | zero =>
    intro m g s h hk _ hv _
    have := countOf_pos (n := n) hx hv
    omega
  | succ k ih =>
    intro m g s h hk hm hv hno
    rw [Nat.mul_succ] at hm ⊢
    obtain ⟨t, ht1, ht2, hw⟩ := exists_atMostOne hx hv (fun X Rs hL hX => hno ⟨X, Rs, hL, hX⟩)
    obtain ⟨j, g1, s1, m1, hj, hsg, hm1, h1, hlt, hkeep, hback⟩ := h.first (2 * n.area) ht1 ht2 hw work_le (by omega)
    rcases hkeep x hx hv with hv' | hv'
    · obtain ⟨j', g', hj', hsg', hc⟩ := ih h1 (by omega) (by omega) hv' (fun h' => hno (hback x h'))
      exact ⟨j + j', g', by omega, hsg.trans hsg', hc⟩
    · exact ⟨j, g1, by omega, hsg, by rw [h1.sim.inv.getColor_view hx, h1.sim.pos x hx, hv']⟩

/-- The attack on all stones at once. -/
theorem Invested.all : ∀ (k : Nat) {m : Nat} {g : Game} {s : State}, Invested dbg n m o c g s →
    Spec.count n s.pos (some c.opp) ≤ k → m + 2 * n.area * k < 65535 →
    ∃ j g', j ≤ 2 * n.area * k ∧ Siege dbg n g j g' ∧
      ∀ q, OnBoard n q → g'.goban.getColor q = .ok (some c.opp) → LivingFree n s.pos c.opp q := by
  intro k
  induction k with
  | zero =>
    intro m g s h hk _
    refine ⟨0, g, Nat.le_refl _, .start, fun q hq hv => ?_⟩
    rw [h.sim.inv.getColor_view hq, h.sim.pos q hq] at hv
    have := countOf_pos (n := n) hq (Except.ok.inj hv)
    omega
  | succ k ih =>
    intro m g s h hk hm
    by_cases hdone : ∀ q, OnBoard n q → s.pos q = some c.opp → LivingFree n s.pos c.opp q
    · refine ⟨0, g, Nat.zero_le _, .start, fun q hq hv => ?_⟩
      rw [h.sim.inv.getColor_view hq, h.sim.pos q hq] at hv
      exact hdone q hq (Except.ok.inj hv)
    simp only [not_forall] at hdone
    obtain ⟨x, hx, hv, hno⟩ := hdone
    rw [Nat.mul_succ] at hm ⊢
    obtain ⟨t, ht1, ht2, hw⟩ := exists_atMostOne hx hv (fun X Rs hL hX => hno ⟨X, Rs, hL, hX⟩)
    obtain ⟨j, g1, s1, m1, hj, hsg, hm1, h1, hlt, _, hback⟩ := h.first (2 * n.area) ht1 ht2 hw work_le (by omega)
    obtain ⟨j', g', hj', hsg', hc⟩ := ih h1 (by omega) (by omega)
    exact ⟨j + j', g', by omega, hsg.trans hsg', fun q hq hqv => hback q (hc q hq hqv)⟩

theorem Legal.invested (h : Legal dbg n m g) (hps : g.passes = 0) (hsu : g.rule.flagIllegal.suicide = false)
    (hfe : g.rule.flagIllegal.fillEye = false) (hsk : g.rule.flagIllegal.superko = false) :
    ∃ o s m', m' ≤ m ∧ Invested dbg n m' o g.turn.opp g s := by
  obtain ⟨o, s, m', hm', _, hs⟩ := h.sim
  exact ⟨o, s, m', hm', hs, by rw [Color.opp_opp, hs.turn], by rw [← hs.passes, hps], hsu, hfe, hsk⟩

theorem countOf_congr {a b : Pos} {d : Color} (h : SameOn n a b) : Spec.count n a (some d) = Spec.count n b (some d) := by
  unfold Spec.count
  congr 1
  exact List.filter_congr fun q hq => by rw [h q (mem_points.1 hq)]

theorem _root_.Spec.LivingFree.congr {a b : Pos} {d : Color} (h : SameOn n a b) {x : Coord} (hl : LivingFree n a d x) : LivingFree n b d x := by
  obtain ⟨X, Rs, hL, hX⟩ := hl
  exact ⟨X, Rs, hL.congr h, hX⟩

/-- **C124**, the attack: where suicide is allowed, a stone of the player to move that is not among stones living by Benson's criterion
for such rules is taken if this player goes on passing. -/
theorem C124_taken (h : Legal dbg n m g) (hps : g.passes = 0) (hsu : g.rule.flagIllegal.suicide = false)
    (hfe : g.rule.flagIllegal.fillEye = false) (hsk : g.rule.flagIllegal.superko = false)
    (hm : m + 2 * n.area * Spec.count n g.goban.view (some g.turn) < 65535) {x : Coord} (hx : OnBoard n x)
    (hv : g.goban.getColor x = .ok (some g.turn)) (hno : ¬ LivingFree n g.goban.view g.turn x) :
    ∃ k g', k ≤ 2 * n.area * Spec.count n g.goban.view (some g.turn) ∧ Siege dbg n g k g' ∧ g'.goban.getColor x = .ok none := by
  obtain ⟨o, s, m', hm', hb⟩ := h.invested hps hsu hfe hsk
  have hs := hb.sim
  have hturn : g.turn.opp.opp = g.turn := Color.opp_opp _
  have hview : g.goban.view x = some g.turn := by
    have := hs.inv.getColor_view hx; rw [hv] at this; exact (Except.ok.inj this).symm
  rw [countOf_congr hs.pos] at hm ⊢
  refine hb.take x hx _ (by rw [hturn]; exact Nat.le_refl _) (by omega) (by rw [hturn, ← hs.pos x hx, hview]) ?_
  rw [hturn]
  exact fun h' => hno (Spec.LivingFree.congr (SameOn.symm hs.pos) h')

/-- Living stones are there after calls in which their player puts no stone. -/
theorem _root_.Spec.LivingFree.stays (h : Legal dbg n m g) {x : Coord} (hx : LivingFree n g.goban.view c x)
    (hsu : g.rule.flagIllegal.suicide = false) {g' : Game} (hsp : Sparing dbg n c (fun _ => True) g g') :
    g'.goban.getColor x = .ok (some c) := by
  obtain ⟨X, Rs, hL, hX⟩ := hx
  exact C68_life h (by rw [hsu]; exact hL) (hsp.mono fun _ _ => trivial) hX

/-- **C124**, the end of the attack: exactly the living stones of the player who passes remain. -/
theorem C124_remain (h : Legal dbg n m g) (hps : g.passes = 0) (hsu : g.rule.flagIllegal.suicide = false)
    (hfe : g.rule.flagIllegal.fillEye = false) (hsk : g.rule.flagIllegal.superko = false)
    (hm : m + 2 * n.area * Spec.count n g.goban.view (some g.turn) < 65535) :
    ∃ k g', k ≤ 2 * n.area * Spec.count n g.goban.view (some g.turn) ∧ Siege dbg n g k g' ∧
      ∀ q, OnBoard n q → (g'.goban.getColor q = .ok (some g.turn) ↔ LivingFree n g.goban.view g.turn q) := by
  obtain ⟨o, s, m', hm', hb⟩ := h.invested hps hsu hfe hsk
  have hs := hb.sim
  rw [countOf_congr hs.pos] at hm ⊢
  obtain ⟨k, g', hk, hsg, hq⟩ := hb.all (Spec.count n s.pos (some g.turn)) (by rw [Color.opp_opp]; exact Nat.le_refl _) (by omega)
  refine ⟨k, g', hk, hsg, fun q hqb => ⟨fun hv => ?_, fun hL => Spec.LivingFree.stays h hL hsu hsg.sparing.2⟩⟩
  rw [Color.opp_opp] at hq
  exact Spec.LivingFree.congr (SameOn.symm hs.pos) (hq q hqb hv)

/-- **C124**: under rules that allow suicide, a stone lives by Benson's criterion for such rules exactly if it is there after any calls
in which its player puts no stone. -/
theorem C124_exact (h : Legal dbg n m g) (hsu : g.rule.flagIllegal.suicide = false) (hfe : g.rule.flagIllegal.fillEye = false)
    (hsk : g.rule.flagIllegal.superko = false) (hm : m + 2 * n.area * Spec.count n g.goban.view (some c) + 1 < 65535) {x : Coord}
    (hx : OnBoard n x) (hv : g.goban.getColor x = .ok (some c)) :
    LivingFree n g.goban.view c x ↔ ∀ g', Sparing dbg n c (fun _ => True) g g' → g'.goban.getColor x = .ok (some c) := by
  refine ⟨fun hL g' hsp => Spec.LivingFree.stays h hL hsu hsp, fun hall => ?_⟩
  apply Classical.byContradiction
  intro hno
  obtain ⟨m1, g1, hm1, hl1, hsp1, ht1, hp1, hg1, hr1, _⟩ := h.handOver c
  subst ht1
  obtain ⟨k, g', _, hsiege, hgone⟩ := C124_taken hl1 hp1 (by rw [hr1]; exact hsu) (by rw [hr1]; exact hfe) (by rw [hr1]; exact hsk)
    (by rw [hg1]; omega) hx (by rw [hg1]; exact hv) (by rw [hg1]; exact hno)
  have := hall g' (hsp1.trans hsiege.sparing.2)
  rw [hgone] at this; cases this

/-! ### Examples -/

/-- Black has one eye of four points and a corner of four points with a white stone in it, on a 4 × 4 board; Black is to move. -/
def exCorner : List GOp :=
  [.try_ (.play 2 0), .try_ .pass, .try_ (.play 2 1), .try_ .pass, .try_ (.play 2 2), .try_ .pass, .try_ (.play 1 2), .try_ .pass,
   .try_ (.play 0 2), .try_ .pass, .try_ (.play 3 0), .try_ .pass, .try_ (.play 3 1), .try_ .pass, .try_ (.play 3 2), .try_ (.play 0 0)]

theorem exCorner_living {g : Game} (h : shows g 4 [some .white, none, some .black, none, none, none, some .black, none, some .black,
    some .black, some .black, none, some .black, some .black, some .black, none] = true) : Spec.Living 4 g.goban.view .black (2, 2) := by
  simp only [decide_eq_true_eq, shows] at h
  rw [show Spec.points 4 = [(0, 0), (0, 1), (0, 2), (0, 3), (1, 0), (1, 1), (1, 2), (1, 3), (2, 0), (2, 1), (2, 2), (2, 3),
    (3, 0), (3, 1), (3, 2), (3, 3)] by decide] at h
  simp only [List.map_cons, List.map_nil, List.cons.injEq, and_true] at h
  obtain ⟨v00, v01, v02, v03, v10, v11, v12, v13, v20, v21, v22, v23, v30, v31, v32, v33⟩ := h
  have st : ∀ {a b d}, Linked 4 g.goban.view a b → Adj b d → OnBoard 4 d → g.goban.view b = some .black →
      g.goban.view d = some .black → Linked 4 g.goban.view a d := fun h1 h2 h3 h4 h5 => .step h1 h2 h3 (by rw [h4, h5])
  have l21 : Linked 4 g.goban.view (2, 2) (2, 1) := st (.refl _) (by decide) (by decide) v22 v21
  have l20 : Linked 4 g.goban.view (2, 2) (2, 0) := st l21 (by decide) (by decide) v21 v20
  have l12 : Linked 4 g.goban.view (2, 2) (1, 2) := st (.refl _) (by decide) (by decide) v22 v12
  have l02 : Linked 4 g.goban.view (2, 2) (0, 2) := st l12 (by decide) (by decide) v12 v02
  have l32 : Linked 4 g.goban.view (2, 2) (3, 2) := st (.refl _) (by decide) (by decide) v22 v32
  refine ⟨fun x => Linked 4 g.goban.view (2, 2) x, fun R => R = (· ∈ [(0, 0), (0, 1), (1, 0), (1, 1)]) ∨
    R = (· ∈ [(0, 3), (1, 3), (2, 3), (3, 3)]), ⟨fun x hx => ⟨linked_onBoard hx (by decide), by rw [linked_same hx, v22]⟩, ?_, ?_, ?_⟩, .refl _⟩
  · rintro R (rfl | rfl) q hq
    · simp only [List.mem_cons, List.not_mem_nil, or_false] at hq
      rcases hq with rfl | rfl | rfl | rfl
      · exact ⟨by decide, by rw [v00]; simp⟩
      · exact ⟨by decide, by rw [v01]; simp⟩
      · exact ⟨by decide, by rw [v10]; simp⟩
      · exact ⟨by decide, by rw [v11]; simp⟩
    · simp only [List.mem_cons, List.not_mem_nil, or_false] at hq
      rcases hq with rfl | rfl | rfl | rfl
      · exact ⟨by decide, by rw [v03]; simp⟩
      · exact ⟨by decide, by rw [v13]; simp⟩
      · exact ⟨by decide, by rw [v23]; simp⟩
      · exact ⟨by decide, by rw [v33]; simp⟩
  · rintro R (rfl | rfl) q hq ⟨a, b⟩ ha ⟨ho1, ho2⟩
    · have : (a, b) ∈ [(0, 0), (0, 1), (1, 0), (1, 1)] ∨ (a, b) = (2, 0) ∨ (a, b) = (2, 1) ∨ (a, b) = (1, 2) ∨ (a, b) = (0, 2) := by
        simp only [List.mem_cons, List.not_mem_nil, or_false] at hq
        rcases hq with rfl | rfl | rfl | rfl <;> unfold Adj at ha <;> dsimp only at ha <;>
          simp only [List.mem_cons, List.not_mem_nil, or_false, Prod.mk.injEq] <;> omega
      rcases this with h | h | h | h | h
      · exact Or.inl h
      all_goals rw [h]; exact Or.inr (by assumption)
    · have ho2 : b < 4 := ho2
      have ho1 : a < 4 := ho1
      have : (a, b) ∈ [(0, 3), (1, 3), (2, 3), (3, 3)] ∨ (a, b) = (0, 2) ∨ (a, b) = (1, 2) ∨ (a, b) = (2, 2) ∨ (a, b) = (3, 2) := by
        simp only [List.mem_cons, List.not_mem_nil, or_false] at hq
        rcases hq with rfl | rfl | rfl | rfl <;> unfold Adj at ha <;> dsimp only at ha <;>
          simp only [List.mem_cons, List.not_mem_nil, or_false, Prod.mk.injEq] <;> omega
      rcases this with h | h | h | h | h
      · exact Or.inl h
      · rw [h]; exact Or.inr l02
      · rw [h]; exact Or.inr l12
      · rw [h]; exact Or.inr (.refl _)
      · rw [h]; exact Or.inr l32
  · intro x hx
    have hx' := linked_symm (by decide) hx
    refine ⟨_, _, Or.inl rfl, Or.inr rfl, ⟨(0, 0), by decide⟩, ⟨(0, 3), by decide⟩, ?_, ?_, ?_⟩
    · intro q hq
      simp only [List.mem_cons, List.not_mem_nil, or_false] at hq
      rcases hq with rfl | rfl | rfl | rfl <;> decide
    · intro q hq hc
      simp only [List.mem_cons, List.not_mem_nil, or_false] at hq
      rcases hq with rfl | rfl | rfl | rfl
      · rw [v00] at hc; simp at hc
      · exact ⟨(0, 2), by decide, linked_trans hx' l02⟩
      · exact ⟨(2, 0), by decide, linked_trans hx' l20⟩
      · exact ⟨(2, 1), by decide, linked_trans hx' l21⟩
    · intro q hq _
      simp only [List.mem_cons, List.not_mem_nil, or_false] at hq
      rcases hq with rfl | rfl | rfl | rfl
      · exact ⟨(0, 2), by decide, linked_trans hx' l02⟩
      · exact ⟨(1, 2), by decide, linked_trans hx' l12⟩
      · exact ⟨(2, 2), by decide, hx'⟩
      · exact ⟨(3, 2), by decide, linked_trans hx' l32⟩

/-- The hypotheses of `C124_taken` and `C124_remain`, and both sides of `C124_exact` false: White fills the corner, clears it by suicide,
fills it again but for one point, and takes the group. Under rules that forbid suicide the same group lives. -/
theorem C124_example (dbg : Bool) : ∃ g, Legal dbg 4 16 g ∧ g.passes = 0 ∧ g.turn = .black ∧ g.rule = FREE ∧
    Spec.count 4 g.goban.view (some .black) = 8 ∧
    g.goban.getColor (2, 2) = .ok (some .black) ∧ Spec.Living 4 g.goban.view .black (2, 2) ∧
    ¬ LivingFree 4 g.goban.view .black (2, 2) ∧ ∃ g', Siege dbg 4 g 10 g' ∧ g'.goban.getColor (2, 2) = .ok none := by
  have : okAnd (mkGame dbg 4 FREE exCorner) (fun g => decide (g.passes = 0) && decide (g.turn = .black) && decide (g.rule = FREE) &&
      decide (Spec.count 4 g.goban.view (some .black) = 8) && decide (g.goban.getColor (2, 2) = .ok (some .black)) &&
      shows g 4 [some .white, none, some .black, none, none, none, some .black, none, some .black, some .black, some .black, none,
        some .black, some .black, some .black, none] &&
      okAnd (siegeFrom dbg 4 g [(0, 1), (1, 0), (1, 1), (1, 1), (0, 1), (1, 0), (0, 3), (1, 3), (2, 3), (3, 3)]) (fun r => match r with
        | some g' => decide (g'.goban.getColor (2, 2) = .ok none)
        | none => false)) = true := by
    cases dbg <;> decide +kernel
  obtain ⟨g, hl, hg⟩ := mkGame_exists (by decide) this
  simp only [Bool.and_eq_true, decide_eq_true_eq] at hg
  obtain ⟨⟨⟨⟨⟨⟨h1, h2⟩, h3⟩, h4⟩, h5⟩, h7⟩, h6⟩ := hg
  obtain ⟨r, e, h6⟩ := okAnd_iff.1 h6
  cases r with
  | none => cases h6
  | some g' =>
    have hs := siegeFrom_siege _ e
    simp only [decide_eq_true_eq] at h6
    refine ⟨g, hl, h1, h2, h3, h4, h5, exCorner_living h7, fun hL => ?_, g', hs, h6⟩
    have hsp := hs.sparing.2
    rw [h2] at hsp
    have := Spec.LivingFree.stays hl hL (by rw [h3]; rfl) hsp
    rw [h6] at this; cases this

/-- Living stones: the group with two eyes of `exAlive`. -/
example (dbg : Bool) : ∃ g, Legal dbg 3 7 g ∧ LivingFree 3 g.goban.view .black (1, 1) := by
  obtain ⟨g, h, _, _, h2, _⟩ := exAlive_eyes dbg FREE (Or.inr rfl)
  exact ⟨g, h, _, _, h2.lives, .refl _⟩

end Model
