import Verif.Props.Retry
/-!
# C131: boards and games where the hypotheses hold
-/

namespace Model
open Spec (OnBoard Adj Joins Linked HasLiberty place captureAround removeGroupIfDead playLocal Pos)
open Bits (has)

variable {dbg : Bool} {n : Dim}

theorem Alone.not_joins {b : Goban} {p : Coord} (h : Alone n b p) (c : Color) : ¬ Joins n b.view p c := by
  rintro ⟨⟨q, h1, h2, h3⟩, _⟩
  unfold Goban.view at h3
  rw [h q h1 h2] at h3
  cases h3

/-- The groups after a stone with nothing beside it. -/
theorem lone_push {b b' : Goban} (hI : Inv n b) {p : Coord} {c : Color} (hp : OnBoard n p) (he : b.getColor p = .ok none)
    (hal : Alone n b p) (hl : b.chains.length < 65535) (e : b.push dbg p c = .ok b') :
    (∀ k, k < b.chains.length → b'.ch k = b.ch k) ∧
      ∀ i, b'.bd i = if i = twoTo1dim n.sz p then some b.chains.length else b.bd i := by
  have hpN := twoTo1_lt hI.good hp
  have hb := (hI.view_none_iff hp).1 ((getColor_none hI hp).1 he)
  have hn361 : ∀ i ∈ nbrs n (twoTo1dim n.sz p), i < 361 := fun i hi => hI.lt361 (nbrs_lt hI.good hpN hi)
  rw [push_eq hI.size hp] at e
  obtain ⟨f, ef, e'⟩ := bind_eq_ok e
  clear e
  cases e'
  rename' ef => e
  obtain ⟨lib, bd, _, _, _, hbd, ec⟩ := create_ok (dbg := dbg) (c := c) (libs := nbrs n (twoTo1dim n.sz p)) hI.rep (hI.lt361 hpN) hb
    (fun i hi => by have := hn361 i hi; omega) hl
  unfold Goban.pushWthFeedback at e
  dsimp only at e
  rw [hI.size, neighborsIdx_ok hI.size hI.good hpN, ok_bind, around_lone (fun i hi => by
    rw [hI.rep.boardAt (hn361 i hi), hal.nbrs hI hp i hi]), ok_bind] at e
  rw [show (([] : List Nat).foldlM (Goban.takeLiberty dbg (twoTo1dim n.sz p)) (b, ([] : List Nat)) : M _) = .ok (b, []) from rfl, ok_bind] at e
  dsimp only at e
  rw [show Goban.attach dbg b (twoTo1dim n.sz p) c [] ([] ++ nbrs n (twoTo1dim n.sz p)) =
    b.createChain dbg (twoTo1dim n.sz p) c (nbrs n (twoTo1dim n.sz p)) from rfl, ec, ok_bind] at e
  dsimp only at e
  rw [indexZobrist_ok (hI.lt361 hpN), ok_bind] at e
  have hf : f.goban.chains = b.chains ++ [some (Group.newWithLiberties c (twoTo1dim n.sz p) lib)] ∧ f.goban.board = bd := by
    cases dbg with
    | false =>
      have := Except.ok.inj e
      rw [← this]; exact ⟨rfl, rfl⟩
    | true =>
      simp only [if_true] at e
      obtain ⟨_, _, e⟩ := bind_eq_ok e
      have := Except.ok.inj e
      rw [← this]; exact ⟨rfl, rfl⟩
  constructor
  · intro k hk
    unfold Goban.ch
    rw [hf.1, List.getElem?_append_left hk]
  · intro i
    unfold Goban.bd
    rw [hf.2]
    exact hbd i

/-- **C131**, a case with both colours. On a 3 × 3 board Black has the corner `(0, 0)`, and White has put and taken back 65,534 stones on
`(2, 2)`. One more panics; after that the same call returns, and `(2, 2)` shows a black stone. -/
theorem C131_push_reached (dbg : Bool) : ∃ b, BoardRecords dbg 3 65535 b ∧ b.getColor (0, 0) = .ok (some .black) ∧
    b.getColor (2, 2) = .ok none ∧ b.push dbg (2, 2) .white = panic ∧ Alone 3 b (2, 2) ∧
    ∃ b'', (U.after (Goban.pushU dbg (2, 2) .white) b).push dbg (2, 2) .white = .ok b'' ∧ b''.getColor (2, 2) = .ok (some .black) := by
  have hon : OnBoard 3 (2, 2) := by decide
  have hfar : ∀ s, Adj (2, 2) s → s ≠ (0, 0) := by
    rintro s h rfl
    revert h; decide
  have key : ∀ r, r ≤ 65534 → ∃ b, BoardRecords dbg 3 (r + 1) b ∧ (∃ grp, b.ch 0 = some grp ∧ grp.color = .black ∧ b.bd 0 = some 0) ∧
      ∀ q, OnBoard 3 q → q ≠ (0, 0) → b.getColor q = .ok none := by
    intro r
    induction r with
    | zero =>
      intro _
      obtain ⟨b0, e0, h⟩ := okAnd_iff.1 (show okAnd (Goban.new (3, 3)) (fun b => decide (∀ q ∈ Spec.points 3, b.getColor q = .ok none)) = true by
        decide +kernel)
      have h := of_decide_eq_true h
      have r0 : BoardRecords dbg 3 0 b0 := .new (by decide) e0
      have hal : Alone 3 b0 (0, 0) := fun s hs _ => h s (mem_points.2 hs)
      have he := h (0, 0) (by decide)
      have ho : OnBoard 3 (0, 0) := by decide
      obtain ⟨b1, e1⟩ := (C87_push r0 (c := .black) ho he).2.2.2 (Or.inl (by decide))
      have r1 := BoardRecords.other r0 ho he (hal.not_joins _) e1
      have hbd := (lone_push r0.inv ho he hal (by rw [r0.length]; decide) e1).2
      have h0 : b1.bd 0 = some 0 := by
        rw [hbd 0, if_pos (by decide), r0.length]
      obtain ⟨grp, hg⟩ := r1.inv.rep.live 0 0 h0
      refine ⟨b1, r1, ⟨grp, hg, ?_, h0⟩, fun q hq hne => ?_⟩
      · rcases r0.inv.push_total (dbg := dbg) (c := .black) ho ((getColor_none r0.inv ho).1 he) with ⟨b2, e2, _, _, hcol⟩ | ⟨e2, _⟩
        · rw [e1] at e2; cases e2
          have := hcol 0
          rw [if_pos (by decide), col_of_bd h0 hg] at this
          exact Option.some.inj this
        · rw [e1] at e2; cases e2
      · rw [getColor_none r1.inv hq, r1.inv.view_none_iff hq, hbd, if_neg]
        · exact (r0.inv.view_none_iff hq).1 ((getColor_none r0.inv hq).1 (h q (mem_points.2 hq)))
        · intro e
          exact hne (by rw [← ptOf_twoTo1 r0.inv.good hq, e, ptOf_twoTo1 r0.inv.good ho])
    | succ r ih =>
      intro hr
      obtain ⟨b, h, ⟨grp, hg, hgc, h0⟩, hv⟩ := ih (by omega)
      have he := hv _ hon (by decide)
      have hal : Alone 3 b (2, 2) := fun s hs ha => hv s hs (hfar s ha)
      obtain ⟨b1, e1⟩ := (C87_push h (c := .white) hon he).2.2.2 (Or.inl (by omega))
      have h1 := BoardRecords.other h hon he (hal.not_joins _) e1
      obtain ⟨hch, hbd⟩ := lone_push h.inv hon he hal (by rw [h.length]; omega) e1
      have hk : b1.bd (twoTo1dim (Dim.sz 3) (2, 2)) = some (r + 1) := by rw [hbd, if_pos rfl, h.length]
      obtain ⟨gk, hgk⟩ := h1.inv.rep.live _ _ hk
      obtain ⟨b3, e3, h3⟩ := remove_spec (dbg := dbg) h1.inv hgk
      have hg1 : b1.ch 0 = some grp := by rw [hch 0 (by rw [h.length]; omega), hg]
      obtain ⟨l', hg3, _⟩ := h3.ch 0 grp (by omega) hg1
      have h01 : b1.bd 0 = some 0 := by rw [hbd, if_neg (by decide), h0]
      refine ⟨b3, .remove h1 ⟨gk, live_ch.2 hgk⟩ e3, ⟨_, hg3, hgc, ?_⟩, fun q hq hne => ?_⟩
      · rw [h3.bd, if_neg (by rw [h01]; simp), h01]
      · rw [getColor_none h3.inv hq, h3.inv.view_none_iff hq, h3.bd]
        split
        · rfl
        · rename_i hx
          rw [hbd] at hx ⊢
          split
          · rename_i hy
            rw [if_pos hy, h.length] at hx
            exact absurd rfl hx
          · exact (h.inv.view_none_iff hq).1 ((getColor_none h.inv hq).1 (hv q hq hne))
  obtain ⟨b, h, ⟨grp, hg, hgc, h0⟩, hv⟩ := key 65534 (Nat.le_refl _)
  have he := hv _ hon (by decide)
  have hal : Alone 3 b (2, 2) := fun s hs ha => hv s hs (hfar s ha)
  have hx := (C87_push h (c := .white) hon he).2.1.2 ⟨rfl, hal.not_joins _⟩
  obtain ⟨b'', e, hc, _⟩ := C131_push_after h hon he hx .white hon he hal
  refine ⟨b, h, ?_, he, hx, hal, b'', e, ?_⟩
  · unfold Goban.getColor
    rw [h.inv.size]
    show b.getColorIdx 0 = _
    rw [h.inv.rep.getColorIdx (by decide), col_of_bd h0 hg, hgc]
  · rw [hc, Goban.chainAt_ok hg, ← hgc]; rfl

/-! ### A game -/

theorem two_points {q : Coord} (h : OnBoard ⟨2, 1⟩ q) : q = (0, 0) ∨ q = (1, 0) := by
  obtain ⟨a, b⟩ := q
  obtain ⟨h1, h2⟩ := h
  have h1 : a < 2 := h1
  have h2 : b < 1 := h2
  simp only [Prod.mk.injEq]
  omega

/-- A stone on an empty board of two points stays. -/
theorem two_first {P : Pos} {c : Color} (h : ∀ q, OnBoard ⟨2, 1⟩ q → P q = none) {q : Coord} (hq : OnBoard ⟨2, 1⟩ q) :
    playLocal ⟨2, 1⟩ true P (0, 0) c q = if q = (0, 0) then some c else none := by
  have hP : ∀ q, OnBoard ⟨2, 1⟩ q → captureAround ⟨2, 1⟩ (place P (0, 0) c) (0, 0) c.opp q = if q = (0, 0) then some c else none := by
    intro q hq
    unfold captureAround
    rw [if_neg]
    · unfold place
      rw [h q hq]
    · rintro ⟨h1, _⟩
      unfold place at h1
      rw [h q hq] at h1
      split at h1
      · exact Color.ne_opp c (Option.some.inj h1)
      · cases h1
  show removeGroupIfDead ⟨2, 1⟩ _ (0, 0) q = _
  unfold removeGroupIfDead
  rw [if_neg, hP q hq]
  rintro ⟨_, h2⟩
  refine h2 ⟨(0, 0), (1, 0), .refl _, by decide, by decide, ?_⟩
  rw [hP _ (by decide)]; rfl

/-- A second stone of the same colour takes both away. -/
theorem two_second {P : Pos} {c : Color} (h : P (0, 0) = some c) {q : Coord} (hq : OnBoard ⟨2, 1⟩ q) :
    playLocal ⟨2, 1⟩ true P (1, 0) c q = none := by
  have hP : ∀ q, OnBoard ⟨2, 1⟩ q → captureAround ⟨2, 1⟩ (place P (1, 0) c) (1, 0) c.opp q = some c := by
    intro q hq
    have hpl : place P (1, 0) c q = some c := by
      unfold place
      rcases two_points hq with rfl | rfl
      · rw [if_neg (by decide), h]
      · rw [if_pos rfl]
    unfold captureAround
    rw [if_neg, hpl]
    rintro ⟨h1, _⟩
    rw [hpl] at h1
    exact Color.ne_opp c (Option.some.inj h1)
  show removeGroupIfDead ⟨2, 1⟩ _ (1, 0) q = _
  unfold removeGroupIfDead
  rw [if_pos]
  refine ⟨?_, ?_⟩
  · rcases two_points hq with rfl | rfl
    · exact .step (.refl _) (by decide) (by decide) (by rw [hP _ (by decide), hP _ (by decide)])
    · exact .refl _
  · rintro ⟨a, b, _, _, h1, h2⟩
    rw [hP b h1] at h2
    cases h2

variable {m0 r0 r : Nat} {g0 g : Game}

theorem records_play (hf : Fresh dbg n m0 g0) (hb : BoardRecords dbg n r0 g0.goban) (h : Records dbg n g0 r0 r g) {x y : Nat}
    (hp : OnBoard n (x, y)) (he : g.goban.getColor (x, y) = .ok none) (hr : r < 65535 ∨ Joins n g.goban.view (x, y) g.turn) :
    ∃ g', g.play dbg (.play x y) = .ok g' ∧ g'.rule = g.rule ∧ g'.passes = 0 ∧ g'.turn = g.turn.opp ∧
      ∀ q, OnBoard n q → g'.goban.getColor q = .ok (playLocal n (!g.rule.flagIllegal.suicide) g.goban.view (x, y) g.turn q) := by
  have hI := (h.inv hf).1
  obtain ⟨hist, el, _⟩ := historyInsert_ok hI g.history (h.inv hf).2
  rcases move_exact (dbg := dbg) (sa := !g.rule.flagIllegal.suicide) (c := g.turn) hI hp ((getColor_none hI hp).1 he) with
    ⟨s, e, hs, _⟩ | ⟨_, hl, hj⟩
  · have hpl := play_eq (dbg := dbg) (g := g) (x := x) (y := y)
    rw [el, ok_bind, e, ok_bind] at hpl
    refine ⟨_, hpl, rfl, rfl, rfl, fun q hq => ?_⟩
    show s.goban.getColor q = _
    rw [hs.inv.getColor_view hq, hs.view q hq]
  · have := h.length hf hb
    rcases hr with hr | hr
    · omega
    · exact absurd hr hj

/-- Rules that forbid nothing. -/
def anyRule : Rule := { JAPANESE with flagIllegal := { ko := false, superko := false, suicide := false, fillEye := false } }

/-- **C131**, a game. On a board of two points under rules that forbid nothing, a player fills the board and loses both stones, over and
over. The stone after 65,535 such rounds panics; the same call then returns, and `get_color` panics on the point it was played on. -/
theorem C131_game_reached (dbg : Bool) : ∃ g0, Game.new (.custom 2 1) anyRule = .ok g0 ∧ Fresh dbg ⟨2, 1⟩ 0 g0 ∧
    ∃ g, Records dbg ⟨2, 1⟩ g0 0 65535 g ∧ g.tryPlay dbg (.play 0 0) = panic ∧ Alone ⟨2, 1⟩ g.goban (0, 0) ∧
    ∃ g'', (U.after (Game.tryPlayU dbg (.play 0 0)) g).tryPlay dbg (.play 0 0) = .ok (none, g'') ∧
      g''.goban.getColor (0, 0) = panic := by
  obtain ⟨g0, e0, h0⟩ := okAnd_iff.1 (show okAnd (Game.new (.custom 2 1) anyRule) (fun g => decide (g.rule.flagIllegal = anyRule.flagIllegal) &&
      decide (g.passes = 0) && decide (∀ q ∈ Spec.points ⟨2, 1⟩, g.goban.getColor q = .ok none)) = true by decide +kernel)
  simp only [Bool.and_eq_true, decide_eq_true_eq] at h0
  obtain ⟨⟨z1, z2⟩, z3⟩ := h0
  have hf : Fresh dbg ⟨2, 1⟩ 0 g0 := .new (by decide) rfl e0
  obtain ⟨r0, hr0, hb, _⟩ := C87_start hf
  obtain rfl : r0 = 0 := by omega
  have alone : ∀ {b : Goban}, (∀ q, OnBoard ⟨2, 1⟩ q → b.getColor q = .ok none) → Alone ⟨2, 1⟩ b (0, 0) := fun h s hs _ => h s hs
  have key : ∀ r, r ≤ 65535 → ∃ g, Records dbg ⟨2, 1⟩ g0 0 r g ∧ g.rule.flagIllegal = anyRule.flagIllegal ∧ g.passes = 0 ∧
      ∀ q, OnBoard ⟨2, 1⟩ q → g.goban.getColor q = .ok none := by
    intro r
    induction r with
    | zero => intro _; exact ⟨g0, .start, z1, z2, fun q hq => z3 q (mem_points.2 hq)⟩
    | succ r ih =>
      intro hr
      obtain ⟨g, h, k1, k2, k3⟩ := ih (by omega)
      obtain ⟨g1, e1, a1, a2, a3, a4⟩ := records_play hf hb h (x := 0) (y := 0) (by decide) (k3 _ (by decide)) (Or.inl (by omega))
      have h1 := Records.other h (by decide) (k3 _ (by decide)) ((alone k3).not_joins _) e1
      have a5 : ∀ q, OnBoard ⟨2, 1⟩ q → g1.goban.getColor q = .ok (if q = (0, 0) then some g.turn else none) := by
        intro q hq
        rw [a4 q hq, k1]
        congr 1
        exact two_first (fun q hq => by unfold Goban.view; rw [k3 q hq]) hq
      have e2 : g1.play dbg .pass = .ok { g1 with turn := g1.turn.opp, koPoint := none, passes := g1.passes + 1 } := by
        unfold Game.play
        rw [a2]; rfl
      have h2 := h1.pass e2
      have ht : g1.turn.opp = g.turn := by rw [a3]; cases g.turn <;> rfl
      have hj : Joins ⟨2, 1⟩ g1.goban.view (1, 0) g1.turn.opp := by
        refine ⟨⟨(0, 0), by decide, by decide, ?_⟩, fun q r hq hr' aq ar _ _ => ?_⟩
        · unfold Goban.view
          rw [a5 _ (by decide), ht]; rfl
        · rcases two_points hq with rfl | rfl
          · rcases two_points hr' with rfl | rfl
            · exact .refl _
            · exact absurd ar (by decide)
          · exact absurd aq (by decide)
      have he2 : g1.goban.getColor (1, 0) = .ok none := by rw [a5 _ (by decide)]; rfl
      obtain ⟨g3, e3, b1, b2, _, b4⟩ := records_play hf hb h2 (x := 1) (y := 0) (by decide) he2 (Or.inr hj)
      refine ⟨g3, Records.join h2 (by decide) he2 hj e3, by rw [b1]; show g1.rule.flagIllegal = _; rw [a1, k1], b2, fun q hq => ?_⟩
      rw [b4 q hq]
      show Except.ok (playLocal ⟨2, 1⟩ (!g1.rule.flagIllegal.suicide) g1.goban.view (1, 0) g1.turn.opp q) = _
      rw [a1, k1, ht]
      congr 1
      refine two_second ?_ hq
      unfold Goban.view
      rw [a5 _ (by decide)]; rfl
  obtain ⟨g, h, k1, k2, k3⟩ := key 65535 (Nat.le_refl _)
  have hon : OnBoard ⟨2, 1⟩ (0, 0) := by decide
  have hI := (h.inv hf).1
  have hex : ∃ s, OnBoard ⟨2, 1⟩ s ∧ Adj (0, 0) s := ⟨(1, 0), by decide, by decide⟩
  have hx : g.tryPlay dbg (.play 0 0) = panic := by
    refine (C87_try_play hf hb h hon).1.2 ⟨rfl, (alone k3).not_joins _, by rw [k2]; decide, ?_⟩
    have := lone_check (dbg := dbg) hI.size hI.good hon (by
      rw [hI.rep.boardAt (hI.lt361 (twoTo1_lt hI.good hon)), (hI.view_none_iff hon).1 ((getColor_none hI hon).1 (k3 _ hon))])
      (fun i hi => by
        rw [hI.rep.boardAt (hI.lt361 (nbrs_lt hI.good (twoTo1_lt hI.good hon) hi)), (alone k3).nbrs hI hon i hi]) hex
      { g.rule.flagIllegal with superko := false }
    rw [this, if_neg]
    rw [k1]
    rintro ⟨h, _⟩
    cases h
  obtain ⟨g'', e, _, _, hc, _⟩ := C131_try_play_again hf hb h hon hx (alone k3) hex
  refine ⟨g0, e0, hf, g, h, hx, alone k3, g'', e, ?_⟩
  rw [hc]
  cases hg : g.goban.ch 0 with
  | none =>
    unfold Goban.ch at hg
    unfold Groups.chainAt
    cases h0 : g.goban.chains[0]? with
    | none => rfl
    | some o =>
      rw [h0] at hg
      cases o with
      | none => rfl
      | some grp => cases hg
  | some grp =>
    exfalso
    obtain ⟨l, hl⟩ := hI.rep.chain 0 grp hg
    have hb0 : g.goban.bd grp.origin = some 0 := (hl.mem _).2 (List.mem_of_mem_head? hl.head)
    have hcol := col_of_bd hb0 hg
    by_cases hi : Ix ⟨2, 1⟩ grp.origin
    · rw [← hI.view_ptOf hi] at hcol
      unfold Goban.view at hcol
      rw [k3 _ (ptOf_onBoard hi)] at hcol
      cases hcol
    · rw [hI.col_off hi] at hcol
      cases hcol

/-! ### A game that is left unchanged -/

/-- The two points, one for each player. -/
def seat : Color → Coord
  | .black => (0, 0)
  | .white => (1, 0)

theorem seat_onBoard (c : Color) : OnBoard ⟨2, 1⟩ (seat c) := by cases c <;> decide

theorem seat_adj (c : Color) : Adj (seat c) (seat c.opp) := by cases c <;> decide

theorem seat_ne (c : Color) : seat c.opp ≠ seat c := by cases c <;> decide

theorem seats (c : Color) {q : Coord} (h : OnBoard ⟨2, 1⟩ q) : q = seat c ∨ q = seat c.opp := by
  rcases two_points h with rfl | rfl <;> cases c <;> simp [seat, Color.opp]

theorem seats_place {P : Pos} {c : Color} (h1 : P (seat c.opp) = some c.opp) {q : Coord} (hq : OnBoard ⟨2, 1⟩ q) :
    place P (seat c) c q = if q = seat c then some c else some c.opp := by
  unfold place
  rcases seats c hq with rfl | rfl
  · rw [if_pos rfl, if_pos rfl]
  · rw [if_neg (seat_ne c), if_neg (seat_ne c), h1]

theorem seats_full {P : Pos} {c : Color} (h1 : P (seat c.opp) = some c.opp) (q : Coord) :
    ¬ HasLiberty ⟨2, 1⟩ (place P (seat c) c) q := by
  rintro ⟨a, b, _, _, hb, e⟩
  rw [seats_place h1 hb] at e
  split at e <;> cases e

/-- Each player takes the other's stone. -/
theorem seats_play {P : Pos} {c : Color} (h1 : P (seat c.opp) = some c.opp) {q : Coord} (hq : OnBoard ⟨2, 1⟩ q) :
    playLocal ⟨2, 1⟩ true P (seat c) c q = if q = seat c then some c else none := by
  have hP : ∀ q, OnBoard ⟨2, 1⟩ q → captureAround ⟨2, 1⟩ (place P (seat c) c) (seat c) c.opp q = if q = seat c then some c else none := by
    intro q hq
    unfold captureAround
    have hpl := seats_place h1 hq
    by_cases h : q = seat c
    · rw [if_pos h] at hpl ⊢
      rw [if_neg, hpl]
      rintro ⟨h2, _⟩
      rw [hpl] at h2
      exact Color.ne_opp c (Option.some.inj h2)
    · rw [if_neg h] at hpl ⊢
      rw [if_pos]
      refine ⟨hpl, seats_full h1 q, q, ?_, hq, hpl, .refl _⟩
      rcases seats c hq with rfl | rfl
      · exact absurd rfl h
      · exact seat_adj c
  show removeGroupIfDead ⟨2, 1⟩ _ (seat c) q = _
  unfold removeGroupIfDead
  rw [if_neg, hP q hq]
  rintro ⟨_, h2⟩
  refine h2 ⟨seat c, seat c.opp, .refl _, seat_adj c, seat_onBoard _, ?_⟩
  rw [hP _ (seat_onBoard _), if_neg (seat_ne c)]

/-- Rules that forbid only positions that have been on the board before. -/
def koRule : Rule := { JAPANESE with flagIllegal := { ko := false, superko := true, suicide := false, fillEye := false } }

/-- **C131**, a game where the panic comes while the move is tried out. On a board of two points the players take each other's stone 65,534
times with `play`, which does not ask for super-ko. After that `try_play` panics on the empty point, and leaves the game as it was. -/
theorem C131_preview_reached (dbg : Bool) : ∃ g0, Game.new (.custom 2 1) koRule = .ok g0 ∧ Fresh dbg ⟨2, 1⟩ 0 g0 ∧
    ∃ g x y, Records dbg ⟨2, 1⟩ g0 0 65535 g ∧ OnBoard ⟨2, 1⟩ (x, y) ∧ g.tryPlay dbg (.play x y) = panic ∧
      g.rule.flagIllegal.superko = true ∧ 2 < g.history.length ∧ g.willCapture dbg (x, y) = .ok true ∧
      Game.tryPlayU dbg (.play x y) g = .error .panic g := by
  obtain ⟨s0, es0, h0⟩ := okAnd_iff.1 (show okAnd (do
      let g0 ← Game.new (.custom 2 1) koRule
      let g1 ← g0.play dbg (.play 0 0)
      let g2 ← g1.play dbg (.play 1 0)
      let g3 ← g2.play dbg (.play 0 0)
      .ok (g0, g1, g2, g3)) (fun r => decide (r.2.2.2.rule.flagIllegal = koRule.flagIllegal) && decide (r.2.2.2.passes = 0) &&
        decide (r.2.2.2.turn = .white) && decide (2 < r.2.2.2.history.length) &&
        decide (r.1.goban.getColor (0, 0) = .ok none) && decide (r.1.goban.getColor (1, 0) = .ok none) &&
        decide (r.2.1.goban.getColor (0, 0) = .ok (some .black)) && decide (r.2.1.goban.getColor (1, 0) = .ok none) &&
        decide (r.2.2.1.goban.getColor (0, 0) = .ok none) && decide (r.2.2.1.goban.getColor (1, 0) = .ok (some .white)) &&
        decide (r.2.2.2.goban.getColor (0, 0) = .ok (some .black)) && decide (r.2.2.2.goban.getColor (1, 0) = .ok none) &&
        decide (r.1.turn = .black) && decide (r.2.1.turn = .white) && decide (r.2.2.1.turn = .black)) = true by
    cases dbg <;> decide +kernel)
  obtain ⟨g0, e0, e⟩ := bind_eq_ok es0
  obtain ⟨g1, e1, e⟩ := bind_eq_ok e
  obtain ⟨g2, e2, e⟩ := bind_eq_ok e
  obtain ⟨g3, e3, e⟩ := bind_eq_ok e
  cases e
  simp only [Bool.and_eq_true, decide_eq_true_eq] at h0
  obtain ⟨⟨⟨⟨⟨⟨⟨⟨⟨⟨⟨⟨⟨⟨z1, z2⟩, z3⟩, z4⟩, a0⟩, a1⟩, b0⟩, b1⟩, c0⟩, c1⟩, d0⟩, d1⟩, ta⟩, tb⟩, tc⟩ := h0
  have hf : Fresh dbg ⟨2, 1⟩ 0 g0 := .new (by decide) rfl e0
  obtain ⟨r0, hr0, hb, _⟩ := C87_start hf
  obtain rfl : r0 = 0 := by omega
  have nj : ∀ {b : Goban} {p q : Coord} {c : Color}, OnBoard ⟨2, 1⟩ p → (∀ s, OnBoard ⟨2, 1⟩ s → s ≠ p → s = q) → b.view q ≠ some c →
      ¬ Joins ⟨2, 1⟩ b.view p c := by
    rintro b p q c hp h1 h2 ⟨⟨s, k1, k2, k3⟩, _⟩
    have hne : s ≠ p := by
      rintro rfl
      rcases k2 with ⟨_, h | h⟩ | ⟨_, h | h⟩ <;> omega
    rw [h1 s k1 hne] at k3
    exact h2 k3
  have p0 : ∀ s, OnBoard ⟨2, 1⟩ s → s ≠ (0, 0) → s = (1, 0) := fun s hs hne => (two_points hs).resolve_left hne
  have p1 : ∀ s, OnBoard ⟨2, 1⟩ s → s ≠ (1, 0) → s = (0, 0) := fun s hs hne => (two_points hs).resolve_right hne
  have r1 : Records dbg ⟨2, 1⟩ g0 0 1 g1 := .other .start (by decide) a0 (nj (by decide) p0 (by
    unfold Goban.view; rw [a1]; simp)) e1
  have r2 : Records dbg ⟨2, 1⟩ g0 0 2 g2 := .other r1 (by decide) b1 (nj (by decide) p1 (by
    unfold Goban.view; rw [b0, tb]; simp)) e2
  have r3 : Records dbg ⟨2, 1⟩ g0 0 3 g3 := .other r2 (by decide) c0 (nj (by decide) p0 (by
    unfold Goban.view; rw [c1, tc]; simp)) e3
  have key : ∀ k, k ≤ 65532 → ∃ g, Records dbg ⟨2, 1⟩ g0 0 (3 + k) g ∧ g.rule.flagIllegal = koRule.flagIllegal ∧ g.passes = 0 ∧
      2 < g.history.length ∧ ∀ q, OnBoard ⟨2, 1⟩ q → g.goban.getColor q = .ok (if q = seat g.turn.opp then some g.turn.opp else none) := by
    intro k
    induction k with
    | zero =>
      intro _
      refine ⟨g3, r3, z1, z2, z4, fun q hq => ?_⟩
      rw [z3]
      rcases two_points hq with rfl | rfl
      · rw [d0]; rfl
      · rw [d1]; rfl
    | succ k ih =>
      intro hr
      obtain ⟨g, h, k1, k2, k3, k4⟩ := ih (by omega)
      have he : g.goban.getColor (seat g.turn) = .ok none := by
        rw [k4 _ (seat_onBoard _), if_neg (fun e => seat_ne g.turn e.symm)]
      have ho : g.goban.view (seat g.turn.opp) = some g.turn.opp := by
        unfold Goban.view
        rw [k4 _ (seat_onBoard _), if_pos rfl]
      have hnj : ¬ Joins ⟨2, 1⟩ g.goban.view (seat g.turn) g.turn :=
        nj (seat_onBoard _) (fun s hs hne => (seats g.turn hs).resolve_left hne) (by
          rw [ho]; exact fun e => Color.ne_opp g.turn (Option.some.inj e).symm)
      obtain ⟨g', e', l1, l2, l3, l4⟩ := records_play hf hb h (x := (seat g.turn).1) (y := (seat g.turn).2) (seat_onBoard _) he
        (Or.inl (by omega))
      refine ⟨g', Records.other h (seat_onBoard _) he hnj e', by rw [l1, k1], l2, ?_, fun q hq => ?_⟩
      · rw [play_eq] at e'
        obtain ⟨hist, el, e'⟩ := bind_eq_ok e'
        obtain ⟨s, _, e'⟩ := bind_eq_ok e'
        cases e'
        show 2 < hist.length
        obtain ⟨hist', el', hc⟩ := historyInsert_ok (h.inv hf).1 g.history (h.inv hf).2
        rw [el] at el'; cases el'
        rcases hc with ⟨rfl, _⟩ | ⟨rfl, _⟩
        · exact k3
        · rw [List.length_append]; omega
      · rw [l4 q hq, l3, Color.opp_opp, k1]
        exact congrArg Except.ok (seats_play ho hq)
  obtain ⟨g, h, k1, k2, k3, k4⟩ := key 65532 (Nat.le_refl _)
  have hI := (h.inv hf).1
  have hon := seat_onBoard g.turn
  have he : g.goban.getColor (seat g.turn) = .ok none := by
    rw [k4 _ (seat_onBoard _), if_neg (fun e => seat_ne g.turn e.symm)]
  have hv := (getColor_none hI hon).1 he
  have ho : g.goban.view (seat g.turn.opp) = some g.turn.opp := by
    unfold Goban.view
    rw [k4 _ (seat_onBoard _), if_pos rfl]
  have hnj : ¬ Joins ⟨2, 1⟩ g.goban.view (seat g.turn) g.turn :=
    nj (seat_onBoard _) (fun s hs hne => (seats g.turn hs).resolve_left hne) (by
      rw [ho]; exact fun e => Color.ne_opp g.turn (Option.some.inj e).symm)
  have hnd : Spec.NoDead ⟨2, 1⟩ g.goban.view := by
    intro q hq hne
    rcases seats g.turn hq with rfl | rfl
    · exact absurd hv hne
    · refine ⟨_, seat g.turn, .refl _, ?_, hon, hv⟩
      have := seat_adj g.turn.opp
      rwa [Color.opp_opp] at this
  obtain ⟨w, ew, hw⟩ := willCapture_ok (dbg := dbg) hI hnd hon hv
  have hw1 : w = true := by
    refine hw.2 ⟨seat g.turn.opp, seat_onBoard _, ho, ?_⟩
    show Spec.removeDead ⟨2, 1⟩ _ _ _ = none
    unfold Spec.removeDead
    rw [if_pos]
    refine ⟨?_, seats_full ho _⟩
    rw [seats_place ho (seat_onBoard _), if_neg (seat_ne _)]
  rw [hw1] at ew
  obtain ⟨bs, es⟩ := checkSuicide_any (dbg := dbg) hI (s := { coord := seat g.turn, color := g.turn }) hon
  obtain ⟨bk, ek⟩ := checkKo_any (dbg := dbg) hI (s := { coord := seat g.turn, color := g.turn }) hon
  obtain ⟨be, ee, _⟩ := checkEye_ok (dbg := dbg) (c := g.turn) hI hon
  have hchk : g.checkPointBy dbg (seat g.turn) { g.rule.flagIllegal with superko := false } = .ok none := by
    rw [checkPointBy_eq he es ek ee, k1]
    rfl
  have hx : g.tryPlay dbg (.play (seat g.turn).1 (seat g.turn).2) = panic :=
    (C87_try_play hf hb h (x := (seat g.turn).1) (y := (seat g.turn).2) hon).1.2 ⟨rfl, hnj, by rw [k2]; decide, hchk⟩
  have hsk : g.rule.flagIllegal.superko = true := by rw [k1]; rfl
  exact ⟨g0, e0, hf, g, _, _, h, hon, hx, hsk, k3, ew, (C131_try_play hf hb h hon hx).1 ⟨hsk, k3, ew⟩⟩

/-- Non-vacuity of `C131_pass`: the third pass in a row. -/
example (dbg : Bool) : ∃ g0 g1 g2, Game.new (.custom 2 2) JAPANESE = .ok g0 ∧ g0.play dbg .pass = .ok g1 ∧ g1.play dbg .pass = .ok g2 ∧
    g2.play dbg .pass = panic := by
  obtain ⟨g0, e0, h⟩ := okAnd_iff.1 (show okAnd (Game.new (.custom 2 2) JAPANESE) (fun g => decide (g.passes = 0)) = true by decide +kernel)
  have h := of_decide_eq_true h
  refine ⟨g0, { g0 with turn := g0.turn.opp, koPoint := none, passes := 1 },
    { g0 with turn := g0.turn.opp.opp, koPoint := none, passes := 2 }, e0, ?_, rfl, rfl⟩
  unfold Game.play
  rw [h]; rfl

/-- Non-vacuity of `C131_play` and of the second alternative of `C131_try_play`: the game of C27 under the Japanese rule, which does not
forbid super-ko. -/
example (dbg : Bool) : ∃ g0 g x y, Game.new (.custom 2 2) JAPANESE = .ok g0 ∧ Records dbg 2 g0 0 65535 g ∧ OnBoard 2 (x, y) ∧
    g.tryPlay dbg (.play x y) = panic ∧ g.play dbg (.play x y) = panic ∧ g.goban.getColor (x, y) = .ok none := by
  obtain ⟨g0, e0, _, g, x, y, h1, h2, h3, _, h5, h6⟩ := C87_reached dbg
  exact ⟨g0, g, x, y, e0, h2, h1, h5, h6, h3⟩

end Model
