import Verif.Props.Listing
import Verif.Props.Lockstep
/-!
# Two claims of the documentation: C104 (`is_over`), C105 (where `pretty_string` draws the first point)
-/

namespace Model
open Spec (OnBoard)

variable {dbg : Bool} {n : Dim} {m : Nat} {g : Game}

/-! ## C104 -/

/-- The documented meaning of `is_over` (src/rules/game.rs:101: "two passes, or no more legals moves, Resign") for a game started
with no pass and no result and played through `play` with the moves `l`: the last two moves are passes, or some move is a resignation,
or the player to move has no legal move. -/
def OverAsDocumented (dbg : Bool) (l : List Move) (g : Game) : Prop :=
  [Move.pass, Move.pass] <:+ l ∨ (∃ k, Move.resign k ∈ l) ∨ g.legals dbg = .ok []

/-- The passes at the end of a list of moves. -/
def lastPasses (l : List Move) : Nat := (l.reverse.takeWhile (fun m => decide (m = .pass))).length

theorem lastPasses_snoc (l : List Move) (mv : Move) : lastPasses (l ++ [mv]) = if mv = .pass then lastPasses l + 1 else 0 := by
  unfold lastPasses
  rw [List.reverse_append]
  simp only [List.reverse_cons, List.reverse_nil, List.nil_append, List.singleton_append, List.takeWhile_cons, decide_eq_true_eq]
  split <;> rfl

theorem two_le_lastPasses (l : List Move) : 2 ≤ lastPasses l ↔ [Move.pass, Move.pass] <:+ l := by
  unfold lastPasses
  rw [← List.reverse_prefix]
  generalize l.reverse = r
  rcases r with _ | ⟨a, _ | ⟨b, r⟩⟩
  · simp
  · by_cases ha : a = .pass <;> simp [ha]
  · by_cases ha : a = .pass
    · by_cases hb : b = .pass
      · simp [ha, hb]
      · simp [ha, hb, Ne.symm hb]
    · simp [ha, Ne.symm ha]

/-- What the moves leave in a game: a result iff there was a resignation, and if there was none, the passes at the end. -/
def Flags (l : List Move) (g : Game) : Prop :=
  (g.outcome ≠ none ↔ ∃ k, Move.resign k ∈ l) ∧ ((¬ ∃ k, Move.resign k ∈ l) → g.passes = lastPasses l)

theorem Flags.play {l : List Move} {g1 : Game} {mv : Move} (h : Flags l g1) (e2 : g1.play dbg mv = .ok g) : Flags (l ++ [mv]) g := by
  obtain ⟨i1, i2⟩ := h
  unfold Flags
  rw [lastPasses_snoc]
  have hmem : (∃ k, Move.resign k ∈ l ++ [mv]) ↔ (∃ k, Move.resign k ∈ l) ∨ ∃ k, Move.resign k = mv := by
    simp only [List.mem_append, List.mem_singleton, exists_or]
  rw [hmem]
  cases mv with
  | pass =>
    unfold Game.play at e2
    obtain ⟨_, _, e2⟩ := bind_eq_ok e2
    cases e2
    have h0 : ¬ ∃ k, Move.resign k = Move.pass := fun ⟨k, h⟩ => by cases h
    refine ⟨by simpa [h0] using i1, fun h => ?_⟩
    rw [if_pos rfl]
    exact congrArg (· + 1) (i2 (fun h' => h (.inl h')))
  | play x y =>
    have h0 : ¬ ∃ k, Move.resign k = Move.play x y := fun ⟨k, h⟩ => by cases h
    have hp := (C16_play e2).2
    rw [play_eq] at e2
    obtain ⟨_, _, e2⟩ := bind_eq_ok e2
    obtain ⟨s, _, e2⟩ := bind_eq_ok e2
    cases e2
    exact ⟨by simpa [h0] using i1, fun h => hp⟩
  | resign c =>
    cases e2
    exact ⟨⟨fun _ => .inr ⟨c, rfl⟩, fun _ => by simp⟩, fun h => absurd (.inr ⟨c, rfl⟩) h⟩

theorem Flags.fold : ∀ (l : List Move) {pre : List Move} {g1 : Game}, Flags pre g1 →
    l.foldlM (fun g mv => g.play dbg mv) g1 = .ok g → Flags (pre ++ l) g
  | [], pre, g1, h, e => by cases e; rwa [List.append_nil]
  | mv :: l, pre, g1, h, e => by
    rw [List.foldlM_cons] at e
    obtain ⟨g2, e1, e2⟩ := bind_eq_ok e
    have := Flags.fold l (h.play e1) e2
    rwa [List.append_assoc] at this

/-- **C104**: in every build, on every board, for every list of moves played from a game with no pass and no
result, `is_over` is true exactly when the last two moves are passes or some move is a resignation. The legal moves play no part,
although the documentation says they do. -/
theorem C104_is_over {g0 : Game} (h1 : g0.outcome = none) (h2 : g0.passes = 0) {l : List Move}
    (e : l.foldlM (fun g mv => g.play dbg mv) g0 = .ok g) :
    g.isOver = true ↔ [Move.pass, Move.pass] <:+ l ∨ ∃ k, Move.resign k ∈ l := by
  obtain ⟨i1, i2⟩ : Flags l g := Flags.fold l (pre := []) ⟨by simp [h1], fun _ => by rw [h2]; rfl⟩ e
  unfold Game.isOver
  by_cases hr : ∃ k, Move.resign k ∈ l
  · have ho := i1.2 hr
    cases ho' : g.outcome with
    | none => exact absurd ho' ho
    | some o => simp [hr]
  · have ho : g.outcome = none := by
      apply Classical.byContradiction
      exact fun h => hr (i1.1 h)
    rw [ho, i2 hr, ← two_le_lastPasses]
    simp [hr]

/-- **C104**: while the player to move has a legal move, `is_over` is as documented. -/
theorem C104_while_legal {g0 : Game} (h1 : g0.outcome = none) (h2 : g0.passes = 0) {l : List Move}
    (e : l.foldlM (fun g mv => g.play dbg mv) g0 = .ok g) (hl : g.legals dbg ≠ .ok []) :
    g.isOver = true ↔ OverAsDocumented dbg l g := by
  rw [C104_is_over h1 h2 e]
  unfold OverAsDocumented
  simp [hl]

/-- **C104**: a player without a legal move is refused every point of the board, and can still pass, however long the game. -/
theorem C104_blocked {n : Nat} (h : Legal dbg n m g) (hps : g.passes < 2) (hl : g.legals dbg = .ok []) :
    (∀ x y, OnBoard n (x, y) → ∃ err, g.tryPlay dbg (.play x y) = .ok (some err, g)) ∧
    ∃ g', g.tryPlay dbg .pass = .ok (none, g') ∧ g'.turn = g.turn.opp ∧ g'.goban = g.goban := by
  have hp2 : g.passes ≠ 2 := by omega
  constructor
  · intro x y hp
    obtain ⟨m', _, hr⟩ := h.reach
    have hna : ¬ (g.Accepts dbg (x, y) ∨ g.tryPlay dbg (.play x y) = panic) := fun ha =>
      nomatch ((C17_any_length hr hp2).2.1 [] hl (x, y) hp hp.1).2 ha
    obtain ⟨⟨o, g'⟩, e⟩ := (tryPlay_room (dbg := dbg) hr.inv hr.histories hp).2.resolve_right fun e => hna (Or.inr e)
    cases o with
    | none => exact absurd (Or.inl ⟨g', e⟩) hna
    | some err =>
      rw [e, C13_refused_unchanged e]
      exact ⟨err, rfl⟩
  · obtain ⟨g', e, h1, _, h3, _⟩ := (C16_pass (dbg := dbg) (g := g)).1 hps
    refine ⟨g', ?_, h1, h3⟩
    unfold Game.tryPlay
    rw [if_neg hp2]
    dsimp only
    rw [e]
    rfl

example : ∃ g, Legal true 2 3 g ∧ (decide (g.passes < 2) && decide (g.legals true = .ok []) : Bool) = true :=
  mkGame_exists (rule := CHINESE) (l := [.try_ (.play 0 0), .try_ (.play 1 0), .try_ (.play 1 1)]) (by decide) (by decide +kernel)

/-- The moves of the witness on a 2 × 2 board: Black, White, Black; the white stone is captured at once. -/
def blockedMoves : List Move := [.play 0 0, .play 1 0, .play 1 1]

/-- **C104**, the documented claim is false, in both builds: on a 2 × 2 board three accepted moves leave White without a legal move,
and the game is not over and has no result. -/
theorem C104_not_over (dbg : Bool) : ∃ g0 g, Fresh dbg 2 0 g0 ∧ g0.outcome = none ∧
    blockedMoves.foldlM (fun g mv => g.play dbg mv) g0 = .ok g ∧ g.legals dbg = .ok [] ∧ g.isOver = false ∧
    g.getOutcome dbg id = .ok none ∧ OverAsDocumented dbg blockedMoves g := by
  have h : okAnd (Game.new (.custom 2 2) CHINESE) (fun g0 => decide (g0.outcome = none) &&
      okAnd (blockedMoves.foldlM (fun g mv => g.play dbg mv) g0) (fun g => decide (g.legals dbg = .ok []) && !g.isOver &&
        decide (g.getOutcome dbg id = .ok none))) = true := by cases dbg <;> decide +kernel
  obtain ⟨g0, e0, h⟩ := okAnd_iff.1 h
  rw [Bool.and_eq_true, decide_eq_true_eq] at h
  obtain ⟨g, e, h2⟩ := okAnd_iff.1 h.2
  simp only [Bool.and_eq_true, decide_eq_true_eq, Bool.not_eq_true'] at h2
  exact ⟨g0, g, .new (by decide) rfl e0, h.1, e, h2.1.1, h2.1.2, h2.2, .inr (.inr h2.1.1)⟩

/-- **C104**: not even when neither player has a legal move. On a 1 × 1 board nobody ever has one, under both rules of the crate, and
the game is not over until somebody resigns or two passes are made. -/
theorem C104_not_over_both (dbg : Bool) {rule : Rule} (hr : rule = CHINESE ∨ rule = JAPANESE) : ∃ g0 g, Fresh dbg 1 0 g0 ∧ g0.legals dbg = .ok [] ∧
    g0.isOver = false ∧ g0.play dbg .pass = .ok g ∧ g.legals dbg = .ok [] ∧ g.isOver = false := by
  have h : okAnd (Game.new (.custom 1 1) rule) (fun g0 => decide (g0.legals dbg = .ok []) && !g0.isOver &&
      okAnd (g0.play dbg .pass) (fun g => decide (g.legals dbg = .ok []) && !g.isOver)) = true := by
    rcases hr with rfl | rfl <;> cases dbg <;> decide +kernel
  obtain ⟨g0, e0, h⟩ := okAnd_iff.1 h
  rw [Bool.and_eq_true] at h
  obtain ⟨g, e, h2⟩ := okAnd_iff.1 h.2
  have h1 := h.1
  simp only [Bool.and_eq_true, decide_eq_true_eq, Bool.not_eq_true'] at h1 h2
  exact ⟨g0, g, .new (by decide) rfl e0, h1.1, h1.2, e, h2.1, h2.2⟩

/-- Non-vacuity of `C104_is_over`: a game over by two passes after stones, and one with two passes apart that is not over. -/
theorem C104_witness : ∃ g0 g g', Fresh true 3 0 g0 ∧ g0.outcome = none ∧ g0.passes = 0 ∧
    [Move.play 1 1, .pass, .play 0 0, .pass, .pass].foldlM (fun g mv => g.play true mv) g0 = .ok g ∧ g.isOver = true ∧
    [Move.pass, .play 0 0, .pass].foldlM (fun g mv => g.play true mv) g0 = .ok g' ∧ g'.isOver = false := by
  have h : okAnd (Game.new (.custom 3 3) CHINESE) (fun g0 => decide (g0.outcome = none) && decide (g0.passes = 0) &&
      okAnd ([Move.play 1 1, .pass, .play 0 0, .pass, .pass].foldlM (fun g mv => g.play true mv) g0) (fun g => g.isOver) &&
      okAnd ([Move.pass, .play 0 0, .pass].foldlM (fun g mv => g.play true mv) g0) (fun g => !g.isOver)) = true := by decide +kernel
  obtain ⟨g0, e0, h⟩ := okAnd_iff.1 h
  simp only [Bool.and_eq_true, decide_eq_true_eq] at h
  obtain ⟨⟨⟨h1, h2⟩, h3⟩, h4⟩ := h
  obtain ⟨g, e, h3⟩ := okAnd_iff.1 h3
  obtain ⟨g', e', h4⟩ := okAnd_iff.1 h4
  exact ⟨g0, g, g', .new (by decide) rfl e0, h1, h2, e, h3, e', by simpa using h4⟩

/-! ## C105 -/

/-- A text of rows shows the board with the point `(0, 0)` in the bottom left corner (src/pieces/goban.rs:418). -/
def ShowsBottomLeft (n : Dim) (g : Goban) (rows : List (List Char)) : Prop :=
  ∀ p, OnBoard n p → ∃ row ch, rows[n.h - 1 - p.1]? = some row ∧ row[p.2]? = some ch ∧
    (ch = '●' ↔ g.getColor p = .ok (some .black)) ∧ (ch = '○' ↔ g.getColor p = .ok (some .white))

/-- The same with `(0, 0)` in the top left corner (src/pieces/goban.rs:271, src/rules/game.rs:168). -/
def ShowsTopLeft (n : Dim) (g : Goban) (rows : List (List Char)) : Prop :=
  ∀ p, OnBoard n p → ∃ row ch, rows[p.1]? = some row ∧ row[p.2]? = some ch ∧
    (ch = '●' ↔ g.getColor p = .ok (some .black)) ∧ (ch = '○' ↔ g.getColor p = .ok (some .white))

/-- **C105**: `pretty_string` shows the board with `(0, 0)` in the top left corner; it shows it with `(0, 0)` in the bottom left corner,
as its documentation says, exactly when the position equals its reflection top to bottom. -/
theorem C105_orientation {g : Goban} (h : Board dbg n m g) :
    ∃ rows : List (List Char), g.prettyString = .ok ((rows.map (· ++ ['\n'])).flatten) ∧ rows.length = n.h ∧
      (∀ row ∈ rows, row.length = n.w) ∧ ShowsTopLeft n g rows ∧
      (ShowsBottomLeft n g rows ↔ ∀ p, OnBoard n p → g.getColor p = g.getColor (n.h - 1 - p.1, p.2)) := by
  obtain ⟨rows, e, hl, hr, hc⟩ := C37_pretty_string h
  have hin : ∀ p, OnBoard n p → OnBoard n (n.h - 1 - p.1, p.2) := fun p hp => ⟨by have := hp.1; show n.h - 1 - p.1 < n.h; omega, hp.2⟩
  have hback : ∀ p, OnBoard n p → n.h - 1 - (n.h - 1 - p.1) = p.1 := fun p hp => by have := hp.1; omega
  refine ⟨rows, e, hl, hr, fun p hp => ?_, fun hs p hp => ?_, fun hs p hp => ?_⟩
  · obtain ⟨row, ch, h1, h2, h3, h4, _⟩ := hc p hp
    exact ⟨row, ch, h1, h2, h3, h4⟩
  · obtain ⟨row, ch, h1, h2, h3, h4⟩ := hs _ (hin p hp)
    obtain ⟨row', ch', k1, k2, k3, k4, _⟩ := hc p hp
    dsimp only at h1 h2
    rw [hback p hp, k1] at h1
    cases h1
    rw [k2] at h2
    cases h2
    have hI := h.inv.1
    rw [hI.getColor_view hp, hI.getColor_view (hin p hp)] at *
    have a1 := k3.symm.trans h3
    have a2 := k4.symm.trans h4
    rcases hv : g.view p with _ | _ | _ <;> rcases hv' : g.view (n.h - 1 - p.1, p.2) with _ | _ | _ <;> simp_all
  · obtain ⟨row, ch, h1, h2, h3, h4, _⟩ := hc _ (hin p hp)
    rw [hs p hp]
    exact ⟨row, ch, h1, h2, h3, h4⟩

/-- **C105**, the documented claim is false: a stone at `(0, 0)` of a 3 × 3 board is drawn at the start of the first line. -/
theorem C105_witness : ∃ g, Board true 3 1 g ∧ g.getColor (0, 0) = .ok (some .black) ∧
    g.prettyString = .ok "●┯┓\n┠┼┨\n┗┷┛\n".toList := by
  obtain ⟨g, h, h2⟩ := mkBoard_exists (dbg := true) (n := 3) (l := [.push 0 0 .black])
    (f := fun g => decide (g.getColor (0, 0) = .ok (some .black)) && decide (g.prettyString = .ok "●┯┓\n┠┼┨\n┗┷┛\n".toList)) (by decide +kernel)
  rw [Bool.and_eq_true, decide_eq_true_eq, decide_eq_true_eq] at h2
  exact ⟨g, h, h2⟩


/-! ## C106 -/

/-- **C106**, who begins, for every list of calls of the setters without moves, every size and every points for which `build` returns:
the last explicit `turn` if there was one; otherwise White iff the number given last to `handicap` is not zero, or, if none was given,
`put_handicap` was last given a point. The documentation ("Overrides the turn") is wrong: an explicit `turn` or `handicap(0)` is not
overridden (`C106_not_white`). -/
theorem C106_white_begins {l : List Setter} {b b' : GameBuilder} (hb : b = l.foldl GameBuilder.call GameBuilder.default)
    (hm : ∀ ms, .moves ms ∉ l) (e : b.build dbg = .ok (g, b')) :
    g.turn = .white ↔ Setter.last Setter.turn? l = some .white ∨ Setter.last Setter.turn? l = none ∧
      ((∃ k, Setter.last Setter.handicap? l = some k ∧ k ≠ 0) ∨ Setter.last Setter.handicap? l = none ∧ Setter.handicapPointsOf l ≠ []) := by
  have moves : b.moves = [] := by
    rw [hb, last_call (f := Setter.moves?) (π := (·.moves)) (fun b c => by cases c <;> rfl) l _]
    have : l.filterMap Setter.moves? = [] := by
      rw [List.filterMap_eq_nil_iff]
      intro c hc
      cases c with
      | moves ms => exact absurd hc (hm ms)
      | _ => rfl
    unfold Setter.last
    rw [this]
    rfl
  have turn : b.turn = Setter.last Setter.turn? l := by
    rw [hb, last_call_option (f := Setter.turn?) (π := (·.turn)) (fun b c => by cases c <;> rfl) l _]; exact Option.or_none
  have handicap : b.handicap = Setter.last Setter.handicap? l := by
    rw [hb, last_call_option (f := Setter.handicap?) (π := (·.handicap)) (fun b c => by cases c <;> rfl) l _]; exact Option.or_none
  have hps : b.handicapPoints = Setter.handicapPointsOf l := by
    rw [hb]; exact last_call (f := Setter.putHandicap?) (π := (·.handicapPoints)) (fun b c => by cases c <;> rfl) l _
  unfold GameBuilder.build at e
  obtain ⟨g1, e1, e⟩ := bind_eq_ok e
  cases e
  unfold GameBuilder.buildInner at e1
  obtain ⟨g2, e2, e1⟩ := bind_eq_ok e1
  rw [moves] at e1
  cases e1
  unfold GameBuilder.start at e2
  obtain ⟨_, _, e2⟩ := bind_eq_ok e2
  obtain ⟨_, _, e2⟩ := bind_eq_ok e2
  obtain ⟨_, _, e2⟩ := bind_eq_ok e2
  cases e2
  dsimp only
  rw [turn, handicap, hps]
  cases Setter.last Setter.turn? l with
  | some c => simp
  | none =>
    cases Setter.last Setter.handicap? l with
    | some k => by_cases hk : k = 0 <;> simp [hk]
    | none => by_cases hk : Setter.handicapPointsOf l = [] <;> simp [hk]

/-- **C106**, as documented when nothing else is said: `put_handicap` with at least one point, and no `turn` and no `handicap` call. -/
theorem C106_put_handicap {l : List Setter} {b b' : GameBuilder} (hb : b = l.foldl GameBuilder.call GameBuilder.default)
    (hm : ∀ ms, .moves ms ∉ l) (ht : ∀ c, .turn c ∉ l) (hh : ∀ k, .handicap k ∉ l) (hp : Setter.handicapPointsOf l ≠ [])
    (e : b.build dbg = .ok (g, b')) : g.turn = .white := by
  have h1 : Setter.last Setter.turn? l = none := by
    unfold Setter.last
    rw [List.getLast?_eq_none_iff, List.filterMap_eq_nil_iff]
    intro c hc
    cases c with
    | turn t => exact absurd hc (ht t)
    | _ => rfl
  have h2 : Setter.last Setter.handicap? l = none := by
    unfold Setter.last
    rw [List.getLast?_eq_none_iff, List.filterMap_eq_nil_iff]
    intro c hc
    cases c with
    | handicap t => exact absurd hc (hh t)
    | _ => rfl
  exact (C106_white_begins hb hm e).2 (.inr ⟨h1, .inr ⟨h2, hp⟩⟩)

/-- **C106**, the documented claim is false: after `turn(Black)` and then `put_handicap` Black begins, and so it is after
`handicap(0)`; after `handicap(2)` alone White begins though no stone is on the board. -/
theorem C106_not_white (dbg : Bool) : ∃ g1 g2 g3 b,
    ([Setter.size (9, 9), .turn .black, .putHandicap [(2, 2), (6, 6)]].foldl GameBuilder.call GameBuilder.default).build dbg = .ok (g1, b) ∧
    ([Setter.size (9, 9), .handicap 0, .putHandicap [(2, 2), (6, 6)]].foldl GameBuilder.call GameBuilder.default).build dbg = .ok (g2, b) ∧
    ([Setter.size (9, 9), .handicap 2].foldl GameBuilder.call GameBuilder.default).build dbg = .ok (g3, b) ∧
    (g1.turn = .black ∧ g1.goban.numberOfStones = (2, 0)) ∧ (g2.turn = .black ∧ g2.goban.numberOfStones = (2, 0)) ∧
    g3.turn = .white ∧ g3.goban.numberOfStones = (0, 0) := by
  have key : ∀ (l : List Setter) (c : Color) (k : Nat × Nat), (okAnd ((l.foldl GameBuilder.call GameBuilder.default).buildInner dbg)
      (fun g => decide (g.turn = c) && decide (g.goban.numberOfStones = k)) = true) → ∃ g,
      (l.foldl GameBuilder.call GameBuilder.default).build dbg = .ok (g, GameBuilder.default) ∧ g.turn = c ∧ g.goban.numberOfStones = k := by
    intro l c k h
    obtain ⟨g, e, h⟩ := okAnd_iff.1 h
    rw [Bool.and_eq_true, decide_eq_true_eq, decide_eq_true_eq] at h
    refine ⟨g, ?_, h⟩
    unfold GameBuilder.build
    rw [e]
    rfl
  obtain ⟨g1, e1, h1⟩ := key [Setter.size (9, 9), .turn .black, .putHandicap [(2, 2), (6, 6)]] .black (2, 0) (by cases dbg <;> decide +kernel)
  obtain ⟨g2, e2, h2⟩ := key [Setter.size (9, 9), .handicap 0, .putHandicap [(2, 2), (6, 6)]] .black (2, 0) (by cases dbg <;> decide +kernel)
  obtain ⟨g3, e3, h3⟩ := key [Setter.size (9, 9), .handicap 2] .white (0, 0) (by cases dbg <;> decide +kernel)
  exact ⟨g1, g2, g3, _, e1, e2, e3, h1, h2, h3.1, h3.2⟩

end Model
