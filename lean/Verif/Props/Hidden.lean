import Verif.Props.Occupied
import Verif.Props.Alias
import Verif.Proofs.Hidden
/-!
# Where a stone with off-board coordinates goes: C77

`play` does not check its coordinates. It turns (x, y) into the index x · height + y of a table of 361 cells.
-/

namespace Model
open Spec (OnBoard Adj Linked HasLiberty NoDead place SameOn Pos)
open Bits (has)

variable {dbg : Bool} {n : Dim} {m : Nat} {g : Game}

/-- The coordinates whose index lies in the table but is the index of no point of the board. -/
def _root_.Spec.Hidden (n : Dim) (x y : Nat) : Prop :=
  x * n.h + y < 361 ∧ ∀ p, OnBoard n p → p.1 * n.h + p.2 ≠ x * n.h + y

/-- The place whose neighbours the board looks at for such coordinates. -/
def _root_.Spec.standsAt (n : Dim) (x y : Nat) : Coord := ((x * n.h + y) / n.h, (x * n.h + y) % n.w)

theorem hidden_ix {x y : Nat} (h : Spec.Hidden n x y) : ¬ Ix n (x * n.h + y) :=
  fun hi => h.2 _ (ptOf_onBoard hi) twoTo1_ptOf

theorem view_of_rep {r : Goban} (h : Rep r) (hs : r.size = n.sz) (hn : n.Good) {p : Coord} (hp : OnBoard n p) :
    r.view p = r.col (twoTo1dim n.sz p) := by
  unfold Goban.view Goban.getColor
  rw [hs, h.getColorIdx ((twoTo1_lt hn hp).lt361 hn)]

theorem stones_of_col {b r : Goban} {p : Nat} {c : Color} (h : Inv n b) (hr : Rep r) (hp : p < 361) (hx : ¬ Ix n p)
    (hc : ∀ i, r.col i = if i = p then some c else b.col i) : r.numberOfStones = Spec.oneMore c (Spec.stones n b.view) := by
  have key : ∀ c', (r.chains.map (slotCount c')).sum = Spec.count n b.view (some c') + (if c' = c then 1 else 0) := by
    intro c'
    rw [hr.slots, ← cnt_eq_count h]
    have := cnt_point (f := b.col) (f' := r.col) hp (fun i hi => by rw [hc, if_neg hi]) c'
    rw [h.col_off hx, hc, if_pos rfl, if_neg (by simp)] at this
    simp only [Option.some.injEq] at this
    have e1 : (if c = c' then 1 else 0) = (if c' = c then 1 else 0) := by
      by_cases hcc : c = c'
      · simp [hcc]
      · rw [if_neg hcc, if_neg (fun h' => hcc h'.symm)]
    omega
  unfold Goban.numberOfStones
  rw [numberOfStones_eq, key, key]
  cases c <;> simp [Spec.oneMore, Spec.stones]

theorem stones_of_col_same {b r : Goban} (h : Inv n b) (hr : Rep r) (hc : ∀ i, r.col i = b.col i) :
    r.numberOfStones = Spec.stones n b.view := by
  have key : ∀ c', (r.chains.map (slotCount c')).sum = Spec.count n b.view (some c') := by
    intro c'
    rw [hr.slots, ← cnt_eq_count h, show r.col = b.col from funext hc]
  unfold Goban.numberOfStones
  rw [numberOfStones_eq, key, key]
  simp [Spec.stones]

/-- Pushing on an index past the end of the table ends. -/
theorem Ends.push_off {b : Goban} {pt : Coord} {c : Color} (h : b.nextStone.length ≤ twoTo1dim b.size pt) :
    Ends (b.pushWthFeedback dbg pt c) := by
  unfold Goban.pushWthFeedback
  dsimp only
  refine Ends.neighborsIdx.bind (fun nbs _ => Ends.bind (Ends.fold (fun a nb => ?_) _ _) (fun a _ =>
    Ends.bind (Ends.fold (fun s k => ?_) _ _) (fun s e => Ends.bind (Ends.attach_off ?_) (fun r e2 => ?_))))
  · unfold Goban.aroundStep
    refine Ends.boardAt.bind (fun o _ => ?_)
    split
    · refine Ends.chainAt.bind (fun ch _ => ?_)
      split
      · split <;> exact Ends.ok
      · split <;> exact Ends.ok
    · exact Ends.ok
  · unfold Goban.takeLiberty
    exact Ends.chainAt.bind (fun _ _ => Ends.removeLiberty.bind (fun _ _ => Ends.ok))
  · rw [take_next e]; exact h
  · exfalso
    have := attach_lt e2
    rw [take_next e] at this
    exact absurd this (Nat.not_lt.2 h)

theorem seen_spec (hn : n.Good) (h2 : 2 ≤ n.h) {x y : Nat} (hi : x * n.h + y < 361) {P : Option Color → Prop} {b : Goban}
    (h : Inv n b) : (∀ j ∈ seen n (x * n.h + y), P (b.col j)) ↔ ∀ q, OnBoard n q → Adj (Spec.standsAt n x y) q → P (b.view q) := by
  constructor
  · intro hj q hq ha
    rw [h.view hq]
    exact hj _ ((mem_seen hn h2 hi).2 ⟨twoTo1_lt hn hq, by rw [ptOf_twoTo1 hn hq]; exact ha⟩)
  · intro hq j hj
    obtain ⟨h3, h4⟩ := (mem_seen hn h2 hi).1 hj
    rw [← h.view_ptOf h3]
    exact hq _ (ptOf_onBoard h3) h4

theorem noDead_ch {b : Goban} (h : Inv n b) (hnd : NoDead n b.view) : ∀ k gk, b.ch k = some gk → gk.isDead = false := by
  intro k gk hk
  obtain ⟨i, hi⟩ := h.rep.live_bd hk
  have hiN := h.off i k hi
  have hi' : b.bd (twoTo1dim n.sz (ptOf n i)) = some k := by rw [twoTo1_ptOf]; exact hi
  have hl := hnd _ (ptOf_onBoard hiN) (by rw [h.view_ptOf hiN, col_of_bd hi hk]; simp)
  rwa [h.hasLiberty_iff hk (ptOf_onBoard hiN) hi'] at hl

/-! ## C77 -/

/-- **C77**, an index past the table: `play` panics, on every reachable game. -/
theorem C77_off_table (h : Reach dbg n m g) {x y : Nat} (hxy : 361 ≤ x * n.h + y) : g.play dbg (.play x y) = panic := by
  have hno := (C40_off_table_partial h hxy).1
  have hend : Ends (g.play dbg (.play x y)) := by
    rw [play_eq]
    obtain ⟨l', el, _⟩ := historyInsert_ok h.inv g.history (fun b hb => by
      obtain ⟨m', _, hb'⟩ := h.spec.history b hb
      exact hb'.inv.1)
    rw [el, ok_bind]
    unfold Goban.move
    have hoff : g.goban.nextStone.length ≤ twoTo1dim g.goban.size (x, y) := by
      rw [h.inv.rep.nlen, h.inv.size]; exact hxy
    refine Ends.bind (Ends.bind (Ends.push_off hoff) (fun f e => ?_)) (fun s e => ?_)
    · have := pushWthFeedback_lt e; omega
    · obtain ⟨f, e, _⟩ := bind_eq_ok e
      have := pushWthFeedback_lt e; omega
  cases e : g.play dbg (.play x y) with
  | ok g' => exact absurd e (hno g')
  | error f =>
    cases f with
    | panic => rfl
    | diverge => exact absurd e hend

/-- **C77**, the index of a point of the board: `play` does what it does for that point. -/
theorem C77_alias (h : Reach dbg n m g) {x y : Nat} {p : Coord} (hi : x * n.h + y = p.1 * n.h + p.2) :
    g.play dbg (.play x y) = g.play dbg (.play p.1 p.2) := (C40_alias_play_partial h hi).1

/-- **C77**, any other index, in a release build, or in a debug build when no neighbour of the place the stone is taken to stand at
is occupied; the rule forbids suicide, or one of these neighbours is empty or of the player's colour. Unless the group table is
full the call returns; no point of the board changes; the stone is counted, and `get_color` shows it at the coordinates given; no
prisoner is counted and the turn passes. -/
theorem C77_hidden (hr : Reach dbg n m g) (hn : NoDead n g.goban.view) (h2 : 2 ≤ n.h) {x y : Nat} (hh : Spec.Hidden n x y)
    (hdb : dbg = true → ∀ q, OnBoard n q → Adj (Spec.standsAt n x y) q → g.goban.getColor q = .ok none)
    (hs : g.rule.flagIllegal.suicide = true ∨
      ∃ q, OnBoard n q ∧ Adj (Spec.standsAt n x y) q ∧ g.goban.getColor q ≠ .ok (some g.turn.opp)) :
    Safe g.Full (g.play dbg (.play x y)) (fun g' => SameOn n g'.goban.view g.goban.view ∧
      g'.goban.numberOfStones = Spec.oneMore g.turn (Spec.stones n g'.goban.view) ∧ g'.goban.getColor (x, y) = .ok (some g.turn) ∧
      g'.prisoners = g.prisoners ∧ g'.turn = g.turn.opp ∧ g'.passes = 0) := by
  have h := hr.inv
  have hi := hh.1
  have hx := hidden_ix hh
  rw [play_eq]
  obtain ⟨l', el, _⟩ := historyInsert_ok h g.history (fun b hb => by
    obtain ⟨m', _, hb'⟩ := hr.spec.history b hb
    exact hb'.inv.1)
  rw [el, ok_bind]
  unfold Goban.move
  have hd0 : dbg = true → ∀ j ∈ seen n (x * n.h + y), g.goban.bd j = none := fun hd j hj => by
    have := (seen_spec h.good h2 hi (P := fun o => o = none) h).2 (fun q hq ha => by
      have := hdb hd q hq ha
      rw [h.getColor_view hq] at this
      exact Except.ok.inj this) j hj
    exact h.rep.col_none_iff.1 this
  rcases push_hidden (dbg := dbg) (c := g.turn) (pt := (x, y)) (p := x * n.h + y) h h2 rfl hi hx hd0 with ⟨f, ef, o⟩ | ⟨ef, hf⟩
  · left
    have hdead : f.dead = [] := by
      rw [List.eq_nil_iff_forall_not_mem]
      intro j hj
      obtain ⟨gj, h3, h4⟩ := o.dead j hj
      rw [noDead_ch h hn j gj h3] at h4; cases h4
    obtain ⟨gt, h3, h4, h5⟩ := o.grp
    have h5 := h5 (noDead_ch h hn)
    rw [ef, ok_bind, hdead]
    unfold Goban.removeCapturedStonesAux
    dsimp only
    rw [show ([] : List Nat).foldlM (Goban.captureStep dbg ([].length == 1)) { removed := (0, 0), ko := none, goban := f.goban } =
      (.ok { removed := (0, 0), ko := none, goban := f.goban } : M Goban.Captures) from rfl, ok_bind, Goban.chainAt_ok h3, ok_bind, if_neg]
    · have hv : SameOn n f.goban.view g.goban.view := by
        intro q hq
        rw [view_of_rep o.rep (o.size.trans h.size) h.good hq, o.col, if_neg (show ¬ twoTo1dim n.sz q = x * n.h + y from hh.2 q hq), h.view hq]
      refine ⟨_, rfl, hv, ?_, ?_, rfl, rfl, rfl⟩
      · show f.goban.numberOfStones = _
        rw [stones_of_col h o.rep hi hx o.col]
        congr 1
        unfold Spec.stones
        rw [count_congr hv, count_congr hv]
      · show f.goban.getColor (x, y) = _
        unfold Goban.getColor
        rw [o.size, h.size]
        show f.goban.getColorIdx (x * n.h + y) = _
        rw [o.rep.getColorIdx hi, o.col, if_pos rfl]
    · rcases hs with hs | ⟨q, hq, ha, hqe⟩
      · rw [hs]; simp
      · have : gt.isDead = false := by
          cases hgd : gt.isDead with
          | false => rfl
          | true =>
            have := (seen_spec h.good h2 hi (P := fun o => o = some g.turn.opp) h).1 (h5.1 hgd) q hq ha
            rw [h.getColor_view hq, this] at hqe
            exact absurd rfl hqe
        rw [this]; simp
  · right
    rw [ef]
    exact ⟨rfl, hf⟩

/-- **C77**, the remaining case: the rule allows suicide and every neighbour of that place is of the other colour (there may be none).
Unless the group table is full the call returns; the board and the count are as before, one prisoner more is counted against the
player, and the turn passes. -/
theorem C77_hidden_suicide (hr : Reach dbg n m g) (hn : NoDead n g.goban.view) (h2 : 2 ≤ n.h) {x y : Nat} (hh : Spec.Hidden n x y)
    (hdb : dbg = true → ∀ q, OnBoard n q → ¬ Adj (Spec.standsAt n x y) q) (hs : g.rule.flagIllegal.suicide = false)
    (ho : ∀ q, OnBoard n q → Adj (Spec.standsAt n x y) q → g.goban.getColor q = .ok (some g.turn.opp)) :
    Safe g.Full (g.play dbg (.play x y)) (fun g' => SameOn n g'.goban.view g.goban.view ∧
      g'.goban.numberOfStones = Spec.stones n g'.goban.view ∧ g'.goban.getColor (x, y) = .ok none ∧
      g'.prisoners = Spec.oneMore g.turn.opp g.prisoners ∧ g'.turn = g.turn.opp ∧ g'.passes = 0) := by
  have h := hr.inv
  have hi := hh.1
  have hx := hidden_ix hh
  rw [play_eq]
  obtain ⟨l', el, _⟩ := historyInsert_ok h g.history (fun b hb => by
    obtain ⟨m', _, hb'⟩ := hr.spec.history b hb
    exact hb'.inv.1)
  rw [el, ok_bind]
  unfold Goban.move
  have hall := (seen_spec h.good h2 hi (P := fun o => o = some g.turn.opp) h).2 (fun q hq ha => by
      have := ho q hq ha
      rw [h.getColor_view hq] at this
      exact Except.ok.inj this)
  have hd0 : dbg = true → ∀ j ∈ seen n (x * n.h + y), g.goban.bd j = none := fun hd j hj => by
    obtain ⟨h3, h4⟩ := (mem_seen h.good h2 hi).1 hj
    exact absurd h4 (hdb hd _ (ptOf_onBoard h3))
  rcases push_hidden (dbg := dbg) (c := g.turn) (pt := (x, y)) (p := x * n.h + y) h h2 rfl hi hx hd0 with ⟨f, ef, o⟩ | ⟨ef, hf⟩
  · left
    have hdead : f.dead = [] := by
      rw [List.eq_nil_iff_forall_not_mem]
      intro j hj
      obtain ⟨gj, h3, h4⟩ := o.dead j hj
      rw [noDead_ch h hn j gj h3] at h4; cases h4
    obtain ⟨gt, h3, h4, h5⟩ := o.grp
    have h5 := (h5 (noDead_ch h hn)).2 hall
    obtain ⟨hone, r', er, hr', hsz, hcol⟩ := remove_hidden (dbg := dbg) o.rep (o.size.trans h.size) h.good h2 hi o.added (o.alone hall) h3 o.nohas
    rw [ef, ok_bind, hdead]
    unfold Goban.removeCapturedStonesAux
    dsimp only
    rw [show ([] : List Nat).foldlM (Goban.captureStep dbg ([].length == 1)) { removed := (0, 0), ko := none, goban := f.goban } =
      (.ok { removed := (0, 0), ko := none, goban := f.goban } : M Goban.Captures) from rfl, ok_bind, Goban.chainAt_ok h3, ok_bind,
      if_pos (by rw [hs, h5]; rfl), er, ok_bind]
    have hcol' : ∀ i, r'.col i = g.goban.col i := by
      intro i
      rw [hcol]
      by_cases hip : i = x * n.h + y
      · rw [if_pos hip, hip, h.col_off hx]
      · rw [if_neg hip, o.col, if_neg hip]
    have hv : SameOn n r'.view g.goban.view := by
      intro q hq
      rw [view_of_rep hr' hsz h.good hq, hcol', h.view hq]
    refine ⟨_, rfl, hv, ?_, ?_, ?_, rfl, rfl⟩
    · show r'.numberOfStones = _
      rw [stones_of_col_same h hr' hcol']
      unfold Spec.stones
      rw [count_congr hv, count_congr hv]
    · show r'.getColor (x, y) = _
      unfold Goban.getColor
      rw [hsz]
      show r'.getColorIdx (x * n.h + y) = _
      rw [hr'.getColorIdx hi, hcol', h.col_off hx]
    · dsimp only
      rw [h4, hone]
      cases g.turn <;> simp [Goban.addRemoved, Spec.oneMore, Color.opp]
  · right
    rw [ef]
    exact ⟨rfl, hf⟩

/-- **C77**, debug builds: with an occupied neighbour of that place the call panics. -/
theorem C77_hidden_debug (hr : Reach true n m g) (h2 : 2 ≤ n.h) {x y : Nat} (hh : Spec.Hidden n x y) {q : Coord} {c : Color}
    (hq : OnBoard n q) (ha : Adj (Spec.standsAt n x y) q) (hc : g.goban.getColor q = .ok (some c)) :
    g.play true (.play x y) = panic := by
  have h := hr.inv
  rw [play_eq]
  obtain ⟨l', el, _⟩ := historyInsert_ok h g.history (fun b hb => by
    obtain ⟨m', _, hb'⟩ := hr.spec.history b hb
    exact hb'.inv.1)
  rw [el, ok_bind]
  unfold Goban.move
  have hv : g.goban.view q = some c := by unfold Goban.view; rw [hc]
  obtain ⟨k, hk⟩ := bd_of_view h hq hv
  rw [push_hidden_debug (pt := (x, y)) h h2 rfl hh.1 (hidden_ix hh)
    ((mem_seen h.good h2 hh.1).2 ⟨twoTo1_lt h.good hq, by rw [ptOf_twoTo1 h.good hq]; exact ha⟩) hk]
  rfl

/-! ### Cases -/

/-- What playing on the given coordinates does: stones counted, stones shown, colour at the coordinates, prisoners. -/
def playAt (dbg : Bool) (g : Game) (x y : Nat) (n : Dim) :
    Option ((Nat × Nat) × (Nat × Nat) × M MaybeColor × (Nat × Nat)) :=
  match g.play dbg (.play x y) with
  | .ok g' => some (g'.goban.numberOfStones, Spec.stones n g'.goban.view, g'.goban.getColor (x, y), g'.prisoners)
  | .error _ => none

theorem hidden_of (n : Dim) (x y : Nat)
    (h : (decide (x * n.h + y < 361) && (Spec.points n).all (fun p => decide (p.1 * n.h + p.2 ≠ x * n.h + y))) = true) :
    Spec.Hidden n x y := by
  simp only [Bool.and_eq_true, decide_eq_true_eq, List.all_eq_true] at h
  exact ⟨h.1, fun p hp => h.2 p (mem_points.2 hp)⟩

example : Spec.Hidden 5 5 2 ∧ Spec.standsAt 5 5 2 = (5, 2) ∧ Adj (Spec.standsAt 5 5 2) (4, 2) :=
  ⟨hidden_of _ _ _ (by decide +kernel), by decide, by decide⟩

example : Spec.Hidden 5 30 0 := hidden_of _ _ _ (by decide +kernel)

/-- White plays just below a black stone on the last line: a release build keeps the stone in a hidden cell if suicide is forbidden,
takes it as a prisoner if it is allowed, and a debug build panics. -/
example : ∃ g, Legal false 5 1 g ∧ (playAt false g 5 2 5 = some ((1, 1), (1, 0), .ok (some .white), (0, 0)) ∧
    g.goban.getColor (4, 2) = .ok (some .black) ∧ g.rule.flagIllegal.suicide = true ∧ g.turn = .white : Bool) = true :=
  mkGame_exists (rule := CHINESE) (l := [.try_ (.play 4 2)]) (by decide) (by decide +kernel)

example : ∃ g, Legal false 5 1 g ∧ (playAt false g 5 2 5 = some ((1, 0), (1, 0), .ok none, (1, 0)) ∧
    g.goban.getColor (4, 2) = .ok (some .black) ∧ g.rule.flagIllegal.suicide = false : Bool) = true :=
  mkGame_exists (rule := { CHINESE with flagIllegal := { CHINESE.flagIllegal with suicide := false } }) (l := [.try_ (.play 4 2)]) (by decide) (by decide +kernel)

example : ∃ g, Legal true 5 1 g ∧ (playAt true g 5 2 5 = none ∧ g.goban.getColor (4, 2) = .ok (some .black) : Bool) = true :=
  mkGame_exists (rule := CHINESE) (l := [.try_ (.play 4 2)]) (by decide) (by decide +kernel)

/-- Far below the board no neighbour is looked at; next to an empty point a debug build keeps the stone as well. -/
example : ∃ g, Legal true 5 1 g ∧ (playAt true g 30 0 5 = some ((1, 1), (1, 0), .ok (some .white), (0, 0)) ∧
    g.turn = .white : Bool) = true :=
  mkGame_exists (rule := CHINESE) (l := [.try_ (.play 4 2)]) (by decide) (by decide +kernel)

example : ∃ g, Legal true 5 1 g ∧ (playAt true g 5 0 5 = some ((1, 1), (1, 0), .ok (some .white), (0, 0)) ∧
    g.goban.getColor (4, 0) = .ok none : Bool) = true :=
  mkGame_exists (rule := CHINESE) (l := [.try_ (.play 4 2)]) (by decide) (by decide +kernel)

end Model
