import Verif.Props.RectTerritory
import Verif.Props.Same
/-!
# Scores of games that show the same, or the same with the colours exchanged, on every board
-/

/-- What `calculate_territories` counts for `c`: C20 if the board is not higher than wide, C92 if it is. -/
noncomputable def Spec.credited (n : Dim) (pos : Spec.Pos) (c : Model.Color) : Nat :=
  if n.w < n.h then Spec.gained n pos c else Spec.territorySize n pos c

namespace Model
open Spec (OnBoard Adj Linked Pos Gathered Faces SameOn)

variable {dbg dbg' : Bool} {n : Dim} {m m' : Nat} {g g' : Game}

theorem territories_none (hI : Inv n g.goban) (hh : n.h = 0) (ord : List Point → List Point) :
    g.goban.calculateTerritories dbg ord = .ok (0, 0) := by
  obtain ⟨es, e, hes⟩ := getEmptyCoords_any hI
  have : es = [] := by
    rw [List.eq_nil_iff_forall_not_mem]
    intro p hp
    have : p.1 < n.h := (hes p hp).1
    omega
  subst this
  unfold Goban.calculateTerritories Goban.territories
  rw [e]
  rfl

/-- `calculate_territories` on every board. -/
theorem calculateTerritories_every (h : Reach dbg n m g) {ord : List Point → List Point} (hord : ∀ l, (ord l).Perm l) :
    g.goban.calculateTerritories dbg ord = .ok (Spec.credited n g.goban.view .black, Spec.credited n g.goban.view .white) := by
  unfold Spec.credited
  by_cases hr : n.w < n.h
  · rw [if_pos hr, if_pos hr]
    exact C92_calculate_territories h.spec.board hr hord
  · rw [if_neg hr, if_neg hr]
    rcases Nat.eq_zero_or_pos n.h with h0 | h0
    · rw [territories_none h.inv h0]
      have : ∀ c, Spec.territorySize n g.goban.view c = 0 := by
        intro c
        have := territorySize_le (n := n) g.goban.view c
        have : n.area = 0 := by unfold Dim.area; rw [h0, Nat.zero_mul]
        omega
      rw [this, this]
    · have hw := h.inv.good.w_le h0
      obtain ⟨a, b⟩ := n
      have : a = b := by
        dsimp only at *
        omega
      subst this
      exact calculateTerritories_ok (n := a) h.inv hord

/-! ## Positions with the same empty points -/

/-- The same points are empty, and those showing `c` in `a` are those showing `c'` in `b`, for both colours. -/
structure Matched (n : Dim) (a b : Pos) (c c' : Color) : Prop where
  empty : ∀ p, OnBoard n p → (a p = none ↔ b p = none)
  own : ∀ p, OnBoard n p → (a p = some c ↔ b p = some c')
  other : ∀ p, OnBoard n p → (a p = some c.opp ↔ b p = some c'.opp)

theorem Matched.symm {a b : Pos} {c c' : Color} (h : Matched n a b c c') : Matched n b a c' c :=
  ⟨fun p hp => (h.empty p hp).symm, fun p hp => (h.own p hp).symm, fun p hp => (h.other p hp).symm⟩

theorem Matched.linked {a b : Pos} {c c' : Color} (h : Matched n a b c c') {p q : Coord} (hp : OnBoard n p) (he : a p = none)
    (hl : Linked n a p q) : Linked n b p q := by
  induction hl with
  | refl => exact .refl _
  | @step q r hL hA hO hs ih =>
    have hq := linked_onBoard hL hp
    have hqe : a q = none := by rw [linked_view hL, he]
    refine .step ih hA hO ?_
    rw [(h.empty q hq).1 hqe]
    exact (h.empty r hO).1 (by rw [hs, hqe])

theorem Matched.gathered {a b : Pos} {c c' : Color} (h : Matched n a b c c') {s p : Coord} :
    Gathered n a s p ↔ Gathered n b s p := by
  have key : ∀ {a b : Pos} {c c' : Color}, Matched n a b c c' → Gathered n a s p → Gathered n b s p := by
    intro a b c c' h hg
    rcases hg with rfl | ⟨q, h1, h2, h3, h4⟩
    · exact Or.inl rfl
    · exact Or.inr ⟨q, h1, h2, (h.empty q h1).1 h3, h.linked h1 h3 h4⟩
  exact ⟨key h, key h.symm⟩

theorem Matched.faces {a b : Pos} {c c' : Color} (h : Matched n a b c c') {s : Coord} :
    (Faces n a s c ↔ Faces n b s c') ∧ (Faces n a s c.opp ↔ Faces n b s c'.opp) := by
  have key : ∀ {a b : Pos} {c c' : Color}, Matched n a b c c' →
      (Faces n a s c → Faces n b s c') ∧ (Faces n a s c.opp → Faces n b s c'.opp) := by
    intro a b c c' h
    exact ⟨fun ⟨p, r, h1, h2, h3, h4⟩ => ⟨p, r, h.gathered.1 h1, h2, h3, (h.own r h3).1 h4⟩,
      fun ⟨p, r, h1, h2, h3, h4⟩ => ⟨p, r, h.gathered.1 h1, h2, h3, (h.other r h3).1 h4⟩⟩
  exact ⟨⟨(key h).1, (key h.symm).1⟩, ⟨(key h).2, (key h.symm).2⟩⟩

theorem Matched.territory {a b : Pos} {c c' : Color} (h : Matched n a b c c') {p : Coord} :
    Spec.Territory n a c p ↔ Spec.Territory n b c' p := by
  unfold Spec.Territory
  constructor
  · rintro ⟨h1, h2, h3, h4⟩
    have h2' := (h.empty p h1).1 h2
    rw [← faces_empty h2] at h3 h4
    rw [← faces_empty h2', ← faces_empty h2']
    exact ⟨h1, h2', h.faces.1.1 h3, fun h5 => h4 (h.faces.2.2 h5)⟩
  · rintro ⟨h1, h2, h3, h4⟩
    have h2' := (h.empty p h1).2 h2
    rw [← faces_empty h2] at h3 h4
    rw [← faces_empty h2', ← faces_empty h2']
    exact ⟨h1, h2', h.faces.1.2 h3, fun h5 => h4 (h.faces.2.1 h5)⟩

theorem Matched.credited {a b : Pos} {c c' : Color} (h : Matched n a b c c') : Spec.credited n a c = Spec.credited n b c' := by
  classical
  unfold Spec.credited
  split
  · unfold Spec.gained
    congr 1
    apply List.map_congr_left
    intro p hp
    have hp := mem_points.1 hp
    unfold Spec.gains
    congr 1
    · have : (Spec.Territory n a c p ∧ ∃ y, OnBoard n (0, y) ∧ Linked n a p (0, y)) ↔
          (Spec.Territory n b c' p ∧ ∃ y, OnBoard n (0, y) ∧ Linked n b p (0, y)) := by
        rw [h.territory]
        constructor
        · rintro ⟨h1, y, h2, h3⟩
          exact ⟨h1, y, h2, h.linked hp ((h.empty p hp).2 h1.2.1) h3⟩
        · rintro ⟨h1, y, h2, h3⟩
          exact ⟨h1, y, h2, h.symm.linked hp h1.2.1 h3⟩
      simp only [this]
    · congr 1
      apply filter_congr'
      intro s hs
      have hs := mem_points.1 hs
      rw [decide_eq_decide, h.gathered, h.faces.1, h.faces.2, Ne, Ne, h.empty s hs]
  · unfold Spec.territorySize
    congr 1
    apply filter_congr'
    intro p _
    rw [decide_eq_decide, h.territory]

theorem matched_same {a b : Pos} (h : SameOn n a b) (c : Color) : Matched n a b c c :=
  ⟨fun p hp => by rw [h p hp], fun p hp => by rw [h p hp], fun p hp => by rw [h p hp]⟩

theorem matched_swap {a b : Pos} (h : SameOn n b (swapPos a)) (c : Color) : Matched n a b c c.opp := by
  refine ⟨fun p hp => ?_, fun p hp => ?_, fun p hp => ?_⟩
  · rw [h p hp]; exact swapC_none.symm
  · rw [h p hp]; exact swapC_some.symm
  · rw [h p hp]; exact swapC_some.symm

/-- **C62**. Equal boards with equal prisoners and komi have the same score, under every counting rule. Any komi. -/
theorem C62_score (h : Reach dbg n m g) (h' : Reach dbg' n m' g') (hb : g.goban.beq g'.goban = .ok true)
    (hp : g.prisoners = g'.prisoners) (hk : g.rule.komi = g'.rule.komi) (f : ScoreRules)
    {ord ord' : List Point → List Point} (hord : ∀ l, (ord l).Perm l) (hord' : ∀ l, (ord' l).Perm l) :
    ∃ s, g.calculateScoreBy dbg ord f = .ok s ∧ g'.calculateScoreBy dbg' ord' f = .ok s := by
  obtain ⟨r, e2, hr⟩ := beq_ok h.inv h'.inv
  rw [hb] at e2
  have hv := hr.1 (Except.ok.inj e2).symm
  have en : g.goban.numberOfStones = g'.goban.numberOfStones := by
    rw [numberOfStones_ok h.inv, numberOfStones_ok h'.inv, count_congr hv, count_congr hv]
  unfold Game.calculateScoreBy
  rw [calculateTerritories_every h hord, calculateTerritories_every h' hord', (matched_same hv .black).credited,
    (matched_same hv .white).credited, en, hp, hk]
  rcases f with ⟨a, b, c⟩
  cases a <;> cases b <;> cases c <;> exact ⟨_, rfl, rfl⟩

/-- **C44**: with the colours exchanged the two scores are exchanged, as long as the komi (which is White's alone) is not
counted. -/
theorem C44_score (h : Reach dbg n m g) (h' : Reach dbg n m' g') (ht : Swapped n g g')
    {ord ord' : List Point → List Point} (hord : ∀ l, (ord l).Perm l) (hord' : ∀ l, (ord' l).Perm l) (f : ScoreRules)
    (hf : f.komi = false) :
    ∃ b w, g.calculateScoreBy dbg ord f = .ok (b, w) ∧ g'.calculateScoreBy dbg ord' f = .ok (w, b) := by
  have et : ∀ c : Color, Spec.credited n g'.goban.view c.opp = Spec.credited n g.goban.view c :=
    fun c => (matched_swap ht.view c).credited.symm
  have en : g'.goban.numberOfStones = (g.goban.numberOfStones.2, g.goban.numberOfStones.1) := by
    rw [numberOfStones_ok h.inv, numberOfStones_ok h'.inv, count_congr ht.view, count_congr ht.view]
    exact Prod.ext (count_swap g.goban.view .white) (count_swap g.goban.view .black)
  unfold Game.calculateScoreBy
  rw [calculateTerritories_every h hord, calculateTerritories_every h' hord', show Color.black = Color.white.opp from rfl, et,
    show Color.white = Color.black.opp from rfl, et, en, ht.prisoners]
  rcases f with ⟨a, b, c⟩
  subst hf
  cases a <;> cases c <;> exact ⟨_, _, rfl, rfl⟩

/-- On the 4 × 2 board: the same stones put in another order show the same and score 17 points; with the colours exchanged the scores
are exchanged. -/
example : ∃ g g' g'', Legal true ⟨4, 2⟩ 3 g ∧ Legal true ⟨4, 2⟩ 3 g' ∧ Legal true ⟨4, 2⟩ 4 g'' ∧
    g.goban.beq g'.goban = .ok true ∧ g.prisoners = g'.prisoners ∧ g.rule.komi = g'.rule.komi ∧ Swapped ⟨4, 2⟩ g g'' ∧
    g.calculateScoreBy true id ⟨true, false, false⟩ = .ok (.fin 17, .fin 0) := by
  obtain ⟨g, h1, e1⟩ := mkGame_exists (dbg := true) (n := ⟨4, 2⟩) (rule := JAPANESE)
    (l := [.try_ (.play 0 0), .try_ .pass, .try_ (.play 1 1)]) (f := fun g =>
      okAnd (mkGame true ⟨4, 2⟩ JAPANESE [.try_ (.play 1 1), .try_ .pass, .try_ (.play 0 0)]) (fun g' =>
      okAnd (mkGame true ⟨4, 2⟩ JAPANESE [.try_ .pass, .try_ (.play 0 0), .try_ .pass, .try_ (.play 1 1)]) (fun g'' =>
        decide (g.goban.beq g'.goban = .ok true) && (decide (g.prisoners = g'.prisoners) && (decide (g.rule.komi = g'.rule.komi) &&
        ((Spec.points ⟨4, 2⟩).all (fun p => okAnd (g.goban.getColor p) (fun c => decide (g''.goban.getColor p = .ok (swapC c)))) &&
        (decide (g''.turn = g.turn.opp) && (decide (g''.passes = g.passes) &&
        (decide (g''.prisoners = (g.prisoners.2, g.prisoners.1)) && (decide (g''.outcome = g.outcome.map EndGame.swap) &&
        decide (g.calculateScoreBy true id ⟨true, false, false⟩ = .ok (.fin 17, .fin 0))))))))))))
    (by decide) (by decide +kernel)
  obtain ⟨g', e2, e3⟩ := okAnd_iff.1 e1
  obtain ⟨g'', e4, e5⟩ := okAnd_iff.1 e3
  simp only [Bool.and_eq_true, decide_eq_true_eq, List.all_eq_true] at e5
  obtain ⟨a1, a2, a3, a4, a5, a6, a7, a8, a9⟩ := e5
  refine ⟨g, g', g'', h1, mkGame_legal (by decide) e2, mkGame_legal (by decide) e4, a1, a2, a3, ⟨fun p hp => ?_, a5, a6, a7, a8⟩, a9⟩
  obtain ⟨c, e, h⟩ := okAnd_iff.1 (a4 p (mem_points.2 hp))
  exact ⟨c, e, of_decide_eq_true h⟩

end Model
