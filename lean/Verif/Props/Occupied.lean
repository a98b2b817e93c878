import Verif.Props.Flow
import Verif.Proofs.Lone
/-!
# What happens when a stone is put on an occupied point: C76, and C50 refuted
-/

namespace Model
open Spec (OnBoard Adj Linked HasLiberty NoDead place SameOn Pos)

variable {dbg : Bool} {n : Dim} {m : Nat} {g : Game}

/-- The stones a position shows, as `number_of_stones` would report them. -/
def _root_.Spec.stones (n : Dim) (pos : Pos) : Nat × Nat := (Spec.count n pos (some .black), Spec.count n pos (some .white))

/-- One stone of colour `d` more. -/
def _root_.Spec.oneMore (d : Color) (s : Nat × Nat) : Nat × Nat :=
  match d with
  | .black => (s.1 + 1, s.2)
  | .white => (s.1, s.2 + 1)

theorem _root_.Spec.oneMore_ne (d : Color) (s : Nat × Nat) : Spec.oneMore d s ≠ s := by
  intro h
  cases d
  · have := congrArg Prod.fst h; simp [Spec.oneMore] at this
  · have := congrArg Prod.snd h; simp [Spec.oneMore] at this

/-- Counting on the board when one point changes. -/
theorem count_point {pos pos' : Pos} {p : Coord} (hp : OnBoard n p) (h : ∀ q, OnBoard n q → q ≠ p → pos' q = pos q) (x : Option Color) :
    Spec.count n pos' x + (if pos p = x then 1 else 0) = Spec.count n pos x + (if pos' p = x then 1 else 0) := by
  unfold Spec.count
  rw [← List.countP_eq_length_filter, ← List.countP_eq_length_filter]
  have := countP_point (p := p) (u := fun q => decide (pos q = x)) (v := fun q => decide (pos' q = x))
    (points_nodup n) (mem_points.2 hp) (fun q hq hne => by rw [h q (mem_points.1 hq) hne])
  simpa using this

theorem getColorIdx_col {r : Goban} {i : Nat} (hb : r.board.length = 361) (hl : ∀ i j, r.bd i = some j → ∃ gj, r.ch j = some gj)
    (hi : i < 361) : r.getColorIdx i = .ok (r.col i) := by
  unfold Goban.getColorIdx Goban.col
  rw [Goban.boardAt_ok (by rw [hb]; exact hi), ok_bind]
  cases hb : r.bd i with
  | none => rfl
  | some j =>
    obtain ⟨gj, hg⟩ := hl _ j hb
    simp only [Option.bind_some, hg, Option.map_some]
    rw [Goban.chainAt_ok hg]; rfl

/-- `get_color` returns, on every point of the board, what the position has there. -/
def ShowsAt (n : Dim) (b : Goban) (pos : Pos) : Prop := ∀ q, OnBoard n q → b.getColor q = .ok (pos q)

theorem ShowsAt.view {b : Goban} {pos : Pos} (h : ShowsAt n b pos) : SameOn n b.view pos := by
  intro q hq
  unfold Goban.view
  rw [h q hq]

theorem OccSpec.shows {b r : Goban} {p : Coord} {c : Color} {t : Nat} {E : Prop} (h : Inv n b) (hp : OnBoard n p)
    (o : OccSpec E b (twoTo1dim n.sz p) c r t) : ShowsAt n r (place b.view p c) := by
  intro q hq
  have hlt := h.lt361 (twoTo1_lt h.good hq)
  have hc := getColorIdx_col o.blen o.live hlt
  have hv : r.getColor q = .ok (r.col (twoTo1dim n.sz q)) := by
    unfold Goban.getColor
    rw [o.size, h.size, hc]
  rw [hv, o.col]
  congr 1
  unfold place
  by_cases hqp : q = p
  · rw [if_pos (by rw [hqp]), if_pos hqp]
  · rw [if_neg (fun h' => hqp (twoTo1_inj h.good hq hp h')), if_neg hqp]
    exact (h.view hq).symm

theorem OccSpec.stones {b r : Goban} {p : Coord} {c d : Color} {t : Nat} {E : Prop} (h : Inv n b) (hp : OnBoard n p) (hd : b.view p = some d)
    (o : OccSpec E b (twoTo1dim n.sz p) c r t) : r.numberOfStones = Spec.oneMore d (Spec.stones n r.view) := by
  have hv := (o.shows h hp).view
  have key : ∀ c', (r.chains.map (slotCount c')).sum = Spec.count n r.view (some c') + (if c' = d then 1 else 0) := by
    intro c'
    rw [o.slots, cnt_eq_count h]
    have := count_point (pos := b.view) (pos' := r.view) hp (fun q hq hne => by rw [hv q hq]; exact if_neg hne) (some c')
    rw [hd, hv p hp, show place b.view p c p = some c from if_pos rfl] at this
    simp only [Option.some.injEq] at this
    have e1 : (if c = c' then 1 else 0) = (if c' = c then 1 else 0) := by
      by_cases hcc : c = c'
      · simp [hcc]
      · rw [if_neg hcc, if_neg (fun h' => hcc h'.symm)]
    have e2 : (if d = c' then 1 else 0) = (if c' = d then 1 else 0) := by
      by_cases hcc : d = c'
      · simp [hcc]
      · rw [if_neg hcc, if_neg (fun h' => hcc h'.symm)]
    omega
  unfold Goban.numberOfStones
  rw [numberOfStones_eq, key, key]
  cases d <;> simp [Spec.oneMore, Spec.stones]

theorem bd_of_view {b : Goban} {p : Coord} {d : Color} (h : Inv n b) (hp : OnBoard n p) (hd : b.view p = some d) :
    ∃ k, b.bd (twoTo1dim n.sz p) = some k := by
  rw [h.view hp] at hd
  obtain ⟨k, _, h1, _⟩ := h.rep.col_some_iff.1 hd
  exact ⟨k, h1⟩

theorem bd_none_view {b : Goban} {p : Coord} (h : Inv n b) (hp : OnBoard n p) : b.bd (twoTo1dim n.sz p) = none ↔ b.view p = none := by
  rw [h.view hp]
  constructor
  · exact col_none
  · intro hc
    cases hb : b.bd (twoTo1dim n.sz p) with
    | none => rfl
    | some k =>
      obtain ⟨gk, hk⟩ := h.rep.live _ _ hb
      rw [col_of_bd hb hk] at hc; cases hc

/-- If all neighbours are of the other colour: the stone has no liberty, and taking it off again leaves the point empty and the
counters as they were before. -/
def OffBoard (dbg : Bool) (n : Dim) (b : Goban) (p : Coord) (c : Color) (f : Goban.Feedback) : Prop :=
  (∀ q, OnBoard n q → Adj p q → b.view q = some c.opp) →
    ∃ gt, f.goban.ch f.added = some gt ∧ gt.isDead = true ∧ gt.color = c ∧ gt.numStones = 1 ∧
      ∃ r, f.goban.removeChain dbg f.added = .ok r ∧ ShowsAt n r (Function.update b.view p none) ∧
        r.numberOfStones = Spec.stones n b.view

/-- `push_wth_feedback` on an occupied point, in terms of what the board shows. -/
theorem pushWth_occupied {b : Goban} {p : Coord} {c d : Color} (h : Inv n b) (hp : OnBoard n p) (hd : b.view p = some d)
    (hdb : dbg = true → ∀ q, OnBoard n q → Adj p q → b.view q = none) :
    Safe (b.chains.length = 65535) (b.pushWthFeedback dbg p c) (fun f => ShowsAt n f.goban (place b.view p c) ∧
      f.goban.numberOfStones = Spec.oneMore d (Spec.stones n f.goban.view) ∧ (NoDead n b.view → f.dead = []) ∧
      (∃ gt, f.goban.ch f.added = some gt ∧
        ((∃ q, OnBoard n q ∧ Adj p q ∧ (b.view q = none ∨ b.view q = some c ∧ NoDead n b.view)) → gt.isDead = false)) ∧
      OffBoard dbg n b p c f) := by
  obtain ⟨k, hk⟩ := bd_of_view h hp hd
  have hpN := twoTo1_lt h.good hp
  rcases push_occupied (dbg := dbg) (c := c) h hp hk (fun hb j hj => by
    obtain ⟨hjN, hadj⟩ := (mem_nbrs h.good hpN).1 hj
    rw [ptOf_twoTo1 h.good hp] at hadj
    have := hdb hb _ (ptOf_onBoard hjN) hadj
    rw [← bd_none_view h (ptOf_onBoard hjN), twoTo1_ptOf] at this
    exact this) with ⟨f, ef, o, hdead, hlone⟩ | hfull
  · have hin : ∀ {q}, OnBoard n q → Adj p q → twoTo1dim n.sz q ∈ nbrs n (twoTo1dim n.sz p) := fun hq hadj =>
      (mem_nbrs h.good hpN).2 ⟨twoTo1_lt h.good hq, by rw [ptOf_twoTo1 h.good hp, ptOf_twoTo1 h.good hq]; exact hadj⟩
    refine Or.inl ⟨f, ef, o.shows h hp, o.stones h hp hd, ?_, ?_, ?_⟩
    · intro hnd
      rw [List.eq_nil_iff_forall_not_mem]
      intro j hj
      obtain ⟨gj, hgj, hde⟩ := hdead j hj
      obtain ⟨i, hi⟩ := h.rep.live_bd hgj
      have hiN := h.off i j hi
      have hi' : b.bd (twoTo1dim n.sz (ptOf n i)) = some j := by rw [twoTo1_ptOf]; exact hi
      have hl := hnd _ (ptOf_onBoard hiN) (by
        rw [h.view_ptOf hiN, col_of_bd hi hgj]; simp)
      rw [h.hasLiberty_iff hgj (ptOf_onBoard hiN) hi', hde] at hl; cases hl
    · obtain ⟨gt, h1, _, h3⟩ := o.added
      refine ⟨gt, h1, ?_⟩
      rintro ⟨q, hq, hadj, hqe | ⟨hqc, hnd⟩⟩
      · exact h3 ⟨_, hin hq hadj, Or.inl ((bd_none_view h hq).2 hqe)⟩
      · obtain ⟨i, hi⟩ := bd_of_view h hq hqc
        obtain ⟨gi, hgi⟩ := h.rep.live _ _ hi
        refine h3 ⟨_, hin hq hadj, Or.inr ⟨i, gi, hi, hgi, ?_, ?_⟩⟩
        · rw [h.view hq, col_of_bd hi hgi] at hqc
          exact Option.some.inj hqc
        · have := hnd q hq (by rw [hqc]; simp)
          rw [h.hasLiberty_iff hgi hq hi] at this; exact this
    · intro hall
      obtain ⟨g1, hL, hno⟩ := hlone (fun j hj => by
        obtain ⟨hjN, hadj⟩ := (mem_nbrs h.good hpN).1 hj
        rw [ptOf_twoTo1 h.good hp] at hadj
        rw [← h.view_ptOf hjN]
        exact hall _ (ptOf_onBoard hjN) hadj)
      obtain ⟨r, er, hO⟩ := remove_lone (dbg := dbg) (o.size.trans h.size) h.good hpN (h.lt361 hpN) o.blen o.live hL hno
      obtain ⟨lib, hg, hlib⟩ := hL.grp
      refine ⟨_, hg, ?_, rfl, rfl, r, er, ?_, ?_⟩
      · rw [isDead_iff]
        intro x
        rw [← Bool.not_eq_true]
        exact fun h' => by simpa using (hlib x).1 h'
      · intro q hq
        have hlt := h.lt361 (twoTo1_lt h.good hq)
        have hv : r.getColor q = .ok (r.col (twoTo1dim n.sz q)) := by
          unfold Goban.getColor
          rw [hO.size, o.size, h.size, getColorIdx_col hO.blen hO.live hlt]
        rw [hv, hO.col, o.col]
        congr 1
        by_cases hqp : q = p
        · rw [if_pos (by rw [hqp]), hqp, Function.update_self]
        · rw [if_neg (fun h' => hqp (twoTo1_inj h.good hq hp h')), if_neg (fun h' => hqp (twoTo1_inj h.good hq hp h')),
            Function.update_of_ne hqp]
          exact (h.view hq).symm
      · unfold Goban.numberOfStones
        rw [numberOfStones_eq]
        have key : ∀ c', (r.chains.map (slotCount c')).sum = Spec.count n b.view (some c') := by
          intro c'
          have h1 := hO.slots c'
          rw [o.slots, cnt_eq_count h] at h1
          omega
        rw [key, key]
        simp [Spec.stones]
  · exact Or.inr hfull

theorem pushWth_occupied_debug {b : Goban} {p q : Coord} {c d : Color} (h : Inv n b) (hp : OnBoard n p) (hd : b.view p = some d)
    (hq : OnBoard n q) (ha : Adj p q) (hqn : b.view q ≠ none) : b.pushWthFeedback true p c = panic := by
  obtain ⟨k, hk⟩ := bd_of_view h hp hd
  obtain ⟨e, he⟩ := Option.ne_none_iff_exists'.1 hqn
  obtain ⟨k', hk'⟩ := bd_of_view h hq he
  exact push_occupied_debug h hp hk ((mem_nbrs h.good (twoTo1_lt h.good hp)).2 ⟨twoTo1_lt h.good hq, by
    rw [ptOf_twoTo1 h.good hp, ptOf_twoTo1 h.good hq]; exact ha⟩) hk'

/-! ## C76, on boards -/

/-- **C76**, `push` on an occupied point of any reachable board, in a release build, or in a debug build when no neighbour is
occupied: unless the group table is full the call returns, the board shows the new colour at the point and nothing else
changed, and `number_of_stones` counts one stone too many, of the colour that stood there before. -/
theorem C76_push_occupied {b : Goban} (hb : Board dbg n m b) {p : Coord} (hp : OnBoard n p) (c : Color) {d : Color}
    (hd : b.getColor p = .ok (some d)) (hdb : dbg = true → ∀ q, OnBoard n q → Adj p q → b.getColor q = .ok none) :
    Safe (b.chains.length = 65535) (b.push dbg p c) (fun b' => ShowsAt n b' (place b.view p c) ∧
      b'.numberOfStones = Spec.oneMore d (Spec.stones n b'.view)) := by
  have h := hb.inv.1
  have hv : ∀ {q o}, b.getColor q = .ok o → b.view q = o := fun e => by unfold Goban.view; rw [e]
  rw [push_eq h.size hp]
  refine Safe.bind (pushWth_occupied h hp (hv hd) (fun e q hq ha => hv (hdb e q hq ha))) ?_
  rintro f ⟨h1, h2, _⟩
  exact Safe.ok ⟨h1, h2⟩

/-- **C76**, debug builds: `push` on an occupied point with an occupied neighbour panics, on every reachable board. -/
theorem C76_push_occupied_debug {b : Goban} (hb : Board true n m b) {p q : Coord} (hp : OnBoard n p) (c : Color) {d e : Color}
    (hd : b.getColor p = .ok (some d)) (hq : OnBoard n q) (ha : Adj p q) (he : b.getColor q = .ok (some e)) :
    b.push true p c = panic := by
  have h := hb.inv.1
  have hv : ∀ {q o}, b.getColor q = .ok o → b.view q = o := fun e => by unfold Goban.view; rw [e]
  rw [push_eq h.size hp, pushWth_occupied_debug h hp (hv hd) hq ha (by rw [hv he]; simp)]
  rfl

/-! ## C76, on games -/

/-- **C76**, `play` on an occupied point of a reachable game without dead groups, in a release build, or in a debug build when no
neighbour is occupied; the rule forbids suicide, or some neighbour is not a stone of the opponent. Unless the group table is full the call returns, the
board shows the new colour at the point and nothing else changed, no prisoner is counted, the turn passes, and
`number_of_stones` counts one stone too many, of the colour that stood there before. -/
theorem C76_play_occupied (hr : Reach dbg n m g) (hn : NoDead n g.goban.view) {x y : Nat} (hp : OnBoard n (x, y)) {d : Color}
    (hd : g.goban.getColor (x, y) = .ok (some d))
    (hdb : dbg = true → ∀ q, OnBoard n q → Adj (x, y) q → g.goban.getColor q = .ok none)
    (hs : g.rule.flagIllegal.suicide = true ∨
      ∃ q, OnBoard n q ∧ Adj (x, y) q ∧ g.goban.getColor q ≠ .ok (some g.turn.opp)) :
    Safe g.Full (g.play dbg (.play x y)) (fun g' => ShowsAt n g'.goban (place g.goban.view (x, y) g.turn) ∧
      g'.goban.numberOfStones = Spec.oneMore d (Spec.stones n g'.goban.view) ∧ g'.prisoners = g.prisoners ∧
      g'.turn = g.turn.opp ∧ g'.passes = 0) := by
  have h := hr.inv
  have hv : ∀ {q o}, g.goban.getColor q = .ok o → g.goban.view q = o := fun e => by unfold Goban.view; rw [e]
  rw [play_eq]
  obtain ⟨l', el, _⟩ := historyInsert_ok h g.history (fun b hb => by
    obtain ⟨m', _, hb'⟩ := hr.spec.history b hb
    exact hb'.inv.1)
  rw [el, ok_bind]
  unfold Goban.move
  rcases pushWth_occupied (dbg := dbg) (c := g.turn) h hp (hv hd) (fun e q hq ha => hv (hdb e q hq ha)) with
    ⟨f, ef, h1, h2, h3, ⟨gt, h4, h5⟩, _⟩ | ⟨ef, hf⟩
  · left
    rw [ef, ok_bind, h3 hn]
    unfold Goban.removeCapturedStonesAux
    dsimp only
    rw [show ([] : List Nat).foldlM (Goban.captureStep dbg ([].length == 1)) { removed := (0, 0), ko := none, goban := f.goban } =
      (.ok { removed := (0, 0), ko := none, goban := f.goban } : M Goban.Captures) from rfl, ok_bind, Goban.chainAt_ok h4, ok_bind, if_neg]
    · exact ⟨_, rfl, h1, h2, rfl, rfl, rfl⟩
    · rcases hs with hs | ⟨q, hq, ha, hqe⟩
      · rw [hs]; simp
      · rw [h5 ⟨q, hq, ha, ?_⟩]
        · simp
        rw [h.getColor_view hq] at hqe
        rcases hv' : g.goban.view q with _ | e
        · exact Or.inl rfl
        · right
          rw [hv'] at hqe
          refine ⟨?_, hn⟩
          by_cases h' : e = g.turn
          · rw [h']
          · exact absurd (by rw [Color.eq_opp_of_ne h']) hqe
  · right
    rw [ef]
    exact ⟨rfl, hf⟩

/-- **C76**, the remaining case: the rule allows suicide and all neighbours are stones of the opponent. Unless the group table is
full the call returns, the point is empty afterwards and nothing else changed, the stone just played is counted as a prisoner, the
turn passes, and `number_of_stones` still counts the stone that stood there. -/
theorem C76_play_occupied_suicide (hr : Reach dbg n m g) (hn : NoDead n g.goban.view) {x y : Nat} (hp : OnBoard n (x, y)) {d : Color}
    (hd : g.goban.getColor (x, y) = .ok (some d))
    (hdb : dbg = true → ∀ q, OnBoard n q → Adj (x, y) q → g.goban.getColor q = .ok none)
    (hs : g.rule.flagIllegal.suicide = false)
    (ho : ∀ q, OnBoard n q → Adj (x, y) q → g.goban.getColor q = .ok (some g.turn.opp)) :
    Safe g.Full (g.play dbg (.play x y)) (fun g' => ShowsAt n g'.goban (Function.update g.goban.view (x, y) none) ∧
      g'.goban.numberOfStones = Spec.oneMore d (Spec.stones n g'.goban.view) ∧ g'.prisoners = Spec.oneMore g.turn.opp g.prisoners ∧
      g'.turn = g.turn.opp ∧ g'.passes = 0) := by
  have h := hr.inv
  have hv : ∀ {q o}, g.goban.getColor q = .ok o → g.goban.view q = o := fun e => by unfold Goban.view; rw [e]
  rw [play_eq]
  obtain ⟨l', el, _⟩ := historyInsert_ok h g.history (fun b hb => by
    obtain ⟨m', _, hb'⟩ := hr.spec.history b hb
    exact hb'.inv.1)
  rw [el, ok_bind]
  unfold Goban.move
  rcases pushWth_occupied (dbg := dbg) (c := g.turn) h hp (hv hd) (fun e q hq ha => hv (hdb e q hq ha)) with
    ⟨f, ef, _, _, h3, _, h6⟩ | ⟨ef, hf⟩
  · left
    obtain ⟨gt, h4, h5, hc, hone, r, er, hview, hcnt⟩ := h6 (fun q hq ha => hv (ho q hq ha))
    rw [ef, ok_bind, h3 hn]
    unfold Goban.removeCapturedStonesAux
    dsimp only
    rw [show ([] : List Nat).foldlM (Goban.captureStep dbg ([].length == 1)) { removed := (0, 0), ko := none, goban := f.goban } =
      (.ok { removed := (0, 0), ko := none, goban := f.goban } : M Goban.Captures) from rfl, ok_bind, Goban.chainAt_ok h4, ok_bind,
      if_pos (by rw [hs, h5]; rfl), er, ok_bind]
    refine ⟨_, rfl, hview, ?_, ?_, rfl, rfl⟩
    · show r.numberOfStones = _
      rw [hcnt]
      have e : ∀ c', Spec.count n g.goban.view (some c') = Spec.count n r.view (some c') + (if d = c' then 1 else 0) := by
        intro c'
        have := count_point (pos := g.goban.view) (pos' := r.view) hp
          (fun q hq hne => by rw [hview.view q hq, Function.update_of_ne hne]) (some c')
        rw [hv hd, hview.view _ hp, Function.update_self] at this
        simp only [Option.some.injEq, reduceCtorEq, if_false] at this
        omega
      show (_, _) = Spec.oneMore d (_, _)
      rw [e, e]
      cases d <;> simp [Spec.oneMore]
    · dsimp only
      rw [hc, hone]
      cases g.turn <;> simp [Goban.addRemoved, Spec.oneMore, Color.opp]
  · right
    rw [ef]
    exact ⟨rfl, hf⟩

/-- **C76**, debug builds: `play` on an occupied point with an occupied neighbour panics, on every reachable game. -/
theorem C76_play_occupied_debug (hr : Reach true n m g) {x y : Nat} {q : Coord} (hp : OnBoard n (x, y)) {d e : Color}
    (hd : g.goban.getColor (x, y) = .ok (some d)) (hq : OnBoard n q) (ha : Adj (x, y) q) (he : g.goban.getColor q = .ok (some e)) :
    g.play true (.play x y) = panic := by
  have h := hr.inv
  have hv : ∀ {q o}, g.goban.getColor q = .ok o → g.goban.view q = o := fun e => by unfold Goban.view; rw [e]
  rw [play_eq]
  obtain ⟨l', el, _⟩ := historyInsert_ok h g.history (fun b hb => by
    obtain ⟨m', _, hb'⟩ := hr.spec.history b hb
    exact hb'.inv.1)
  rw [el, ok_bind]
  unfold Goban.move
  rw [pushWth_occupied_debug h hp (hv hd) hq ha (by rw [hv he]; simp)]
  rfl

/-- **C50** fails on every reachable game without dead groups, at every occupied point, under every rule and
in every build: `play` there panics, or it returns and the count is wrong. -/
theorem C50_always_false (hr : Reach dbg n m g) (hn : NoDead n g.goban.view) {x y : Nat}
    (hp : OnBoard n (x, y)) {d : Color} (hd : g.goban.getColor (x, y) = .ok (some d)) :
    g.play dbg (.play x y) = panic ∨
      ∃ g', g.play dbg (.play x y) = .ok g' ∧ g'.goban.numberOfStones ≠ Spec.stones n g'.goban.view := by
  have fin : (dbg = true → ∀ q, OnBoard n q → Adj (x, y) q → g.goban.getColor q = .ok none) →
      g.play dbg (.play x y) = panic ∨
        ∃ g', g.play dbg (.play x y) = .ok g' ∧ g'.goban.numberOfStones ≠ Spec.stones n g'.goban.view := fun hdb => by
    by_cases hs : g.rule.flagIllegal.suicide = true ∨
      ∃ q, OnBoard n q ∧ Adj (x, y) q ∧ g.goban.getColor q ≠ .ok (some g.turn.opp)
    · rcases C76_play_occupied hr hn hp hd hdb hs with ⟨g', e, _, h2, _⟩ | ⟨e, _⟩
      · exact Or.inr ⟨g', e, by rw [h2]; exact Spec.oneMore_ne _ _⟩
      · exact Or.inl e
    · rw [not_or] at hs
      rcases C76_play_occupied_suicide hr hn hp hd hdb (by simpa using hs.1)
        (fun q h1 h2 => Classical.not_not.1 (fun h3 => hs.2 ⟨q, h1, h2, h3⟩)) with ⟨g', e, _, h2, _⟩ | ⟨e, _⟩
      · exact Or.inr ⟨g', e, by rw [h2]; exact Spec.oneMore_ne _ _⟩
      · exact Or.inl e
  cases dbg with
  | false => exact fin (by simp)
  | true =>
    by_cases hq : ∃ q e, OnBoard n q ∧ Adj (x, y) q ∧ g.goban.getColor q = .ok (some e)
    · obtain ⟨q, e, h1, h2, h3⟩ := hq
      exact Or.inl (C76_play_occupied_debug hr hp hd h1 h2 h3)
    · apply fin
      intro _ q h1 h2
      rw [hr.inv.getColor_view h1]
      cases hv : g.goban.view q with
      | none => rfl
      | some e => exact absurd ⟨q, e, h1, h2, by rw [hr.inv.getColor_view h1, hv]⟩ hq

/-! ### Cases -/

/-- The stones a board reports and those it shows, after playing on the given point of the game. -/
def playAgain (dbg : Bool) (g : Game) (x y : Nat) (n : Dim) : Option ((Nat × Nat) × (Nat × Nat)) :=
  match g.play dbg (.play x y) with
  | .ok g' => some (g'.goban.numberOfStones, Spec.stones n g'.goban.view)
  | .error _ => none

/-- A release build: White plays on a black stone that has a black and a white neighbour. -/
example : ∃ g, Legal false 5 3 g ∧ (playAgain false g 1 1 5 = some ((2, 2), (1, 2)) ∧
    g.goban.getColor (1, 1) = .ok (some .black) ∧ g.rule.flagIllegal.suicide = true : Bool) = true :=
  mkGame_exists (rule := CHINESE) (l := [.try_ (.play 1 1), .try_ (.play 1 2), .try_ (.play 2 1)]) (by decide) (by decide +kernel)

/-- The same in a debug build panics; on a lone stone a debug build miscounts as well. -/
example : ∃ g, Legal true 5 3 g ∧ (playAgain true g 1 1 5 = none ∧ g.goban.getColor (1, 2) = .ok (some .white) : Bool) = true :=
  mkGame_exists (rule := CHINESE) (l := [.try_ (.play 1 1), .try_ (.play 1 2), .try_ (.play 2 1)]) (by decide) (by decide +kernel)

example : ∃ g, Legal true 5 1 g ∧ (playAgain true g 1 1 5 = some ((1, 1), (0, 1)) : Bool) = true :=
  mkGame_exists (rule := CHINESE) (l := [.try_ (.play 1 1)]) (by decide) (by decide +kernel)

/-- Suicide allowed, White plays on the black corner stone between two black stones: the corner is empty afterwards, and
`number_of_stones` still counts three black stones. -/
example : ∃ g, Legal false 5 5 g ∧ (playAgain false g 0 0 5 = some ((3, 2), (2, 2)) ∧
    g.goban.getColor (0, 0) = .ok (some .black) ∧ g.goban.getColor (0, 1) = .ok (some g.turn.opp) ∧
    g.goban.getColor (1, 0) = .ok (some g.turn.opp) ∧ g.rule.flagIllegal.suicide = false : Bool) = true :=
  mkGame_exists (rule := { CHINESE with flagIllegal := { CHINESE.flagIllegal with suicide := false } })
    (l := [.try_ (.play 0 0), .try_ (.play 4 4), .try_ (.play 0 1), .try_ (.play 4 3), .try_ (.play 1 0)]) (by decide) (by decide +kernel)

/-- The same with a white stone beside the corner, black having none there: the new group keeps its liberty. -/
example : ∃ g, Legal false 5 3 g ∧ (playAgain false g 0 0 5 = some ((2, 2), (1, 2)) ∧
    g.goban.getColor (0, 0) = .ok (some .black) ∧ g.goban.getColor (0, 1) = .ok (some .white) ∧
    g.goban.getColor (1, 0) = .ok (some .black) ∧ g.rule.flagIllegal.suicide = false : Bool) = true :=
  mkGame_exists (rule := { CHINESE with flagIllegal := { CHINESE.flagIllegal with suicide := false } })
    (l := [.try_ (.play 0 0), .try_ (.play 0 1), .try_ (.play 1 0)]) (by decide) (by decide +kernel)

end Model
