import Verif.Props.Board
import Verif.Props.Builder
import Verif.Props.Rules
import Verif.Props.Flow
import Verif.Props.Ko
/-!
# What the calls do for every input, where the expected behaviour fails: C78, C79, C81, C82, C83

The properties C38, C53, C28, C30, C33, C35 and C36 are false as stated. The theorems here say, without any restriction on the input,
what happens.
-/

namespace Model
open Spec (OnBoard Adj Linked HasLiberty NoDead place SameOn Pos)

variable {dbg : Bool} {n : Dim} {m : Nat} {g : Game}

/-! ## C78 -/

/-- The players who resigned, in order. -/
def resignations (l : List GOp) : List Color := l.filterMap (fun
  | .try_ (.resign k) => some k
  | _ => none)

theorem tryPlay_resign {e : Option PlayError} {g' : Game} {k : Color} (h : g.tryPlay dbg (.resign k) = .ok (e, g')) :
    (e = none ∧ g'.outcome = some (.winnerByResign k)) ∨ (e ≠ none ∧ g' = g) := by
  unfold Game.tryPlay at h
  split at h
  · cases h; exact Or.inr ⟨by simp, rfl⟩
  · obtain ⟨l, e1, h⟩ := bind_eq_ok h
    cases h
    cases e1
    exact Or.inl ⟨rfl, rfl⟩

theorem accepted_cons {c : GOp} {cs : List GOp} {e : Option PlayError} {es : List (Option PlayError)} :
    accepted (c :: cs) (e :: es) = if e = none then c :: accepted cs es else accepted cs es := rfl

theorem resignations_cons (c : GOp) (l : List GOp) : resignations (c :: l) = resignations [c] ++ resignations l :=
  List.filterMap_append (l := [c])

theorem run_resignations : ∀ {cs : List GOp} {g : Game} {es : List (Option PlayError)} {g' : Game}, g.run dbg cs = .ok (es, g') →
    g'.outcome = ((resignations (accepted cs es)).getLast?.map EndGame.winnerByResign).or g.outcome
  | [], g, es, g', h => by cases h; rfl
  | c :: cs, g, es, g', h => by
    unfold Game.run at h
    obtain ⟨⟨e1, g1⟩, h1, h⟩ := bind_eq_ok h
    obtain ⟨⟨es2, g2⟩, h2, h⟩ := bind_eq_ok h
    cases h
    have ih := run_resignations h2
    dsimp only at h1 ih ⊢
    rw [accepted_cons]
    by_cases hc : ∃ k, c = .try_ (.resign k)
    · obtain ⟨k, rfl⟩ := hc
      rcases tryPlay_resign h1 with ⟨rfl, ho⟩ | ⟨he, rfl⟩
      · rw [if_pos rfl, ih, ho, resignations_cons]
        show _ = ((k :: resignations (accepted cs es2)).getLast?.map EndGame.winnerByResign).or g.outcome
        rw [List.getLast?_cons]
        cases (resignations (accepted cs es2)).getLast? <;> rfl
      · rw [if_neg he, ih]
    · have ho := (call_outcome h1).2 (fun k e => hc ⟨k, e⟩)
      rw [ih, ho]
      have hr : resignations [c] = [] := by
        cases c with
        | try_ m => cases m with
          | resign k => exact absurd ⟨k, rfl⟩ hc
          | _ => rfl
        | _ => rfl
      by_cases he : e1 = none
      · rw [if_pos he, resignations_cons, hr]; rfl
      · rw [if_neg he]

/-- **C78**: after any sequence of calls on any game, if some resignation was accepted, the game is over and its result is a win by
resignation of the player named in the *last* accepted resignation. -/
theorem C78_last_resignation {cs : List GOp} {es : List (Option PlayError)} {g' : Game} (e : g.run dbg cs = .ok (es, g')) {k : Color}
    (hk : (resignations (accepted cs es)).getLast? = some k) :
    g'.isOver = true ∧ ∀ ord, g'.getOutcome dbg ord = .ok (some (.winnerByResign k)) := by
  have h := run_resignations e
  rw [hk] at h
  have ho : g'.outcome = some (.winnerByResign k) := h
  exact ⟨by unfold Game.isOver; rw [ho]; rfl, fun ord => C22_recorded ho⟩

/-- **C78**: if no resignation was accepted, a result the game started with stays, and a game without a result is over exactly while
two passes stand; otherwise it has no result. -/
theorem C78_no_resignation {cs : List GOp} {es : List (Option PlayError)} {g' : Game} (e : g.run dbg cs = .ok (es, g'))
    (hk : resignations (accepted cs es) = []) :
    (∀ o, g.outcome = some o → g'.isOver = true ∧ ∀ ord, g'.getOutcome dbg ord = .ok (some o)) ∧
    (g.outcome = none → (g'.isOver = true ↔ 2 ≤ g'.passes) ∧ (g'.passes < 2 → ∀ ord, g'.getOutcome dbg ord = .ok none)) := by
  have h := run_resignations e
  rw [hk] at h
  have ho : g'.outcome = g.outcome := h
  refine ⟨fun o h0 => ?_, fun h0 => ⟨?_, fun hp ord => ?_⟩⟩
  · rw [h0] at ho
    exact ⟨by unfold Game.isOver; rw [ho]; rfl, fun ord => C22_recorded ho⟩
  · unfold Game.isOver
    rw [ho, h0]
    simp
  · have : g'.isOver = false := by
      unfold Game.isOver
      rw [ho, h0]
      simpa using hp
    unfold Game.getOutcome
    rw [this]
    rfl

/-- **C78**: a resignation is accepted exactly while fewer than two passes stand, and changes nothing but the result. -/
theorem C78_accepted (g : Game) (k : Color) : (g.passes = 2 → g.tryPlay dbg (.resign k) = .ok (some .gamePaused, g)) ∧
    (g.passes ≠ 2 → g.tryPlay dbg (.resign k) = .ok (none, { g with outcome := some (.winnerByResign k) })) := by
  refine ⟨fun h => C13_paused h _, fun h => ?_⟩
  unfold Game.tryPlay
  rw [if_neg h]
  rfl

/-- Non-vacuity of C78: White resigns, a stone is placed, Black resigns, two passes, White's resignation is refused. -/
example (dbg : Bool) : ∃ g0 es g, Fresh dbg 3 0 g0 ∧ g0.run dbg [.try_ (.resign .white), .try_ (.play 1 1), .try_ (.resign .black),
      .try_ .pass, .try_ .pass, .try_ (.resign .white)] = .ok (es, g) ∧
    es = [none, none, none, none, none, some .gamePaused] ∧ g.getOutcome dbg id = .ok (some (.winnerByResign .black)) := by
  have : okAnd (Game.new (.custom 3 3) CHINESE) (fun g0 => okAnd (g0.run dbg [.try_ (.resign .white), .try_ (.play 1 1),
      .try_ (.resign .black), .try_ .pass, .try_ .pass, .try_ (.resign .white)]) (fun r =>
        r.1 = [none, none, none, none, none, some .gamePaused])) = true := by cases dbg <;> decide +kernel
  obtain ⟨g0, e0, h⟩ := okAnd_iff.1 this
  obtain ⟨⟨es, g⟩, e, h⟩ := okAnd_iff.1 h
  simp only [decide_eq_true_eq] at h
  refine ⟨g0, es, g, .new (by decide) rfl e0, e, h, (C78_last_resignation e ?_).2 id⟩
  rw [h]; rfl

/-! ## C79 -/

/-- **C79**: for all sides, `Game::new` takes them modulo 256, panics if one of the remainders exceeds 19, and otherwise gives the
blank game of that size. -/
theorem C79_new (size : GobanSizes) (rule : Rule) :
    (19 < size.asked.1 % 256 ∨ 19 < size.asked.2 % 256 → Game.new size rule = panic) ∧
    (size.asked.1 % 256 ≤ 19 → size.asked.2 % 256 ≤ 19 →
      ∃ g, Game.new size rule = .ok g ∧ Blank (size.asked.1 % 256) (size.asked.2 % 256) rule g) := by
  have hs : size.toSize = (size.asked.1 % 256, size.asked.2 % 256) := by cases size <;> rfl
  unfold Game.new
  rw [hs]
  refine ⟨fun h => ?_, fun h1 h2 => ?_⟩
  · unfold Goban.new
    have : (decide (size.asked.1 % 256 ≤ 19) && decide (size.asked.2 % 256 ≤ 19)) = false := by simp; omega
    rw [this]; rfl
  · obtain ⟨b, e, hb1, hb2, hb3⟩ := goban_new_blank h1 h2
    rw [e, ok_bind]
    exact ⟨_, rfl, hb1, hb2, hb3, rfl, rfl, ⟨rfl, rfl⟩, rfl, rfl⟩

/-- Non-vacuity of C79: 1000 = 3 · 256 + 232 is refused, 775 = 3 · 256 + 7 gives a side of 7. -/
example : Game.new (.custom 1000 9) JAPANESE = panic ∧
    okAnd (Game.new (.custom 775 9) JAPANESE) (fun g => g.goban.size == (7, 9)) = true := by decide +kernel

/-! ## C81 -/

/-- **C81**, what `play_for_verification` shows, on every reachable game without dead groups and every empty point: the position after
the play with the rule about suicide *reversed*. Where the rule forbids suicide the stones that would have no liberty are removed, and
where it allows it they stay. -/
theorem C81_preview (hr : Reach dbg n m g) (hn : NoDead n g.goban.view) {p : Coord} (hp : OnBoard n p)
    (he : g.goban.getColor p = .ok none) :
    Safe g.Full (g.playForVerification dbg p) (fun b =>
      SameOn n b.view (Spec.play n g.rule.flagIllegal.suicide g.goban.view p g.turn) ∧
      b.numberOfStones = (Spec.count n b.view (some .black), Spec.count n b.view (some .white))) := by
  have h := hr.inv
  have he' : g.goban.view p = none := by unfold Goban.view; rw [he]
  rw [playForVerification_eq]
  apply Safe.bind (move_total (dbg := dbg) (suicide := g.rule.flagIllegal.suicide) (c := g.turn) h hp he')
  intro c hc
  exact Safe.ok ⟨SameOn.trans hc.view (playLocal_eq_play _ hn hp he'), numberOfStones_ok hc.inv⟩

/-- Non-vacuity of C81: where suicide is allowed the preview keeps the stone; where it is forbidden the preview has none. -/
example : ∃ g, Legal true 3 3 g ∧ (okAnd (g.playForVerification true (0, 0)) (fun b => b.getColor (0, 0) = .ok (some .white)) ∧
    g.rule.flagIllegal.suicide = false ∧ g.turn = .white : Bool) = true :=
  mkGame_exists (rule := FREE) (l := [.try_ (.play 0 1), .try_ (.play 2 2), .try_ (.play 1 0)]) (by decide) (by decide +kernel)

example : ∃ g, Legal true 3 3 g ∧ (okAnd (g.playForVerification true (0, 0)) (fun b => b.getColor (0, 0) = .ok none) ∧
    g.rule.flagIllegal.suicide = true ∧ g.turn = .white : Bool) = true :=
  mkGame_exists (rule := JAPANESE) (l := [.try_ (.play 0 1), .try_ (.play 2 2), .try_ (.play 1 0)]) (by decide) (by decide +kernel)

/-! ## C83 -/

/-- What a position shows in the cell with index `i` of the table: the colour of the point with that index, if there is one. -/
def _root_.Spec.cell (n : Dim) (pos : Pos) (i : Nat) : Option Color :=
  if OnBoard n (i / n.h, i % n.h) then pos (i / n.h, i % n.h) else none

/-- The coordinates the listings give for an index. -/
def _root_.Spec.listed (n : Dim) (i : Nat) : Coord := (i / n.h % 256, i % n.w % 256)

theorem cell_col {b : Goban} (h : Inv n b) (i : Nat) : Spec.cell n b.view i = b.col i := by
  unfold Spec.cell
  by_cases hi : Ix n i
  · rw [if_pos (show OnBoard n (i / n.h, i % n.h) from hi)]
    exact h.view_ptOf hi
  · rw [if_neg (show ¬ OnBoard n (i / n.h, i % n.h) from hi), h.col_off hi]

theorem cell_none {b : Goban} (h : Inv n b) (i : Nat) : Spec.cell n b.view i = none ↔ b.bd i = none := by
  rw [cell_col h]; exact h.rep.col_none_iff

/-- **C83**, `get_coords_by_color` and `get_stones_by_color`, for every size, colour and build: a debug build panics if the number of
points exceeds 255; otherwise the first height · width mod 256 cells are looked at, all of them are listed for `EMPTY`, and those
showing the colour for a colour. -/
theorem C83_coords_by_color {b : Goban} (h : Board dbg n m b) (color : MaybeColor) :
    (dbg = true → 256 ≤ n.h * n.w → b.getCoordsByColor dbg color = panic ∧ b.getStonesByColor dbg color = panic) ∧
    ((dbg = true → n.h * n.w < 256) →
      b.getCoordsByColor dbg color = .ok (((List.range (n.h * n.w % 256)).filter
        (fun i => decide (color = none ∨ Spec.cell n b.view i = color))).map (Spec.listed n)) ∧
      b.getStonesByColor dbg color = .ok (((List.range (n.h * n.w % 256)).filter
        (fun i => decide (color = none ∨ Spec.cell n b.view i = color))).map (fun i => ⟨Spec.listed n i, color⟩))) := by
  have hI := h.inv.1
  refine ⟨fun hd hb => ?_, fun hd => ?_⟩
  · subst hd
    have e : b.getCoordsByColor true color = panic := by
      unfold Goban.getCoordsByColor
      rw [hI.size, mulU8_big (by dsimp only [Dim.sz]; omega)]; rfl
    refine ⟨e, ?_⟩
    unfold Goban.getStonesByColor
    rw [e]; rfl
  · have hm : mulU8 dbg n.h n.w = .ok (n.h * n.w % 256) := by
      cases dbg with
      | false => exact mulU8_release
      | true => rw [mulU8_small (hd rfl), Nat.mod_eq_of_lt (hd rfl)]
    have e : b.getCoordsByColor dbg color = .ok (((List.range (n.h * n.w % 256)).filter
        (fun i => decide (color = none ∨ Spec.cell n b.view i = color))).map (Spec.listed n)) := by
      unfold Goban.getCoordsByColor
      rw [hI.size]
      dsimp only [Dim.sz]
      rw [hm, ok_bind, mapM_ok (h := fun i => if decide (color = none ∨ Spec.cell n b.view i = color) then some (Spec.listed n i)
        else none)]
      · rw [ok_bind, filterMap_map_id, filterMap_if]
      · intro i hi
        have hi := List.mem_range.1 hi
        have hlt : i < n.h * n.w := Nat.lt_of_lt_of_le hi (Nat.mod_le _ _)
        have h0 : ¬ (n.h = 0 ∨ n.w = 0) := by
          rintro (h' | h') <;> rw [h'] at hlt <;> simp at hlt
        have e1 : oneTo2dim (n.h, n.w) i = .ok (Spec.listed n i) := by
          unfold oneTo2dim
          rw [if_neg h0]; rfl
        cases color with
        | none => dsimp only; rw [e1]; rfl
        | some c =>
          have h361 : i < 361 := by
            have := Nat.mul_le_mul hI.good.h19 hI.good.w19
            omega
          dsimp only
          rw [Goban.boardAt_ok (by rw [hI.rep.blen]; exact h361), ok_bind, cell_col hI]
          cases hbd : b.bd i with
          | none => rw [col_none hbd]; simp
          | some k =>
            obtain ⟨grp, hg⟩ := hI.rep.live i k hbd
            rw [col_of_bd hbd hg]
            dsimp only
            rw [Goban.chainAt_ok hg, ok_bind, e1]
            by_cases hc : grp.color = c <;> simp [hc]
    refine ⟨e, ?_⟩
    unfold Goban.getStonesByColor
    rw [e, ok_bind, List.map_map]; rfl

/-- **C83**, `get_empty_coords`, for every size: the cells among the first height · width that show no stone. -/
theorem C83_empty_coords {b : Goban} (h : Board dbg n m b) :
    b.getEmptyCoords = .ok (((List.range (n.h * n.w)).filter (fun i => decide (Spec.cell n b.view i = none))).map (Spec.listed n)) := by
  have hI := h.inv.1
  have hle : n.h * n.w ≤ 361 := Nat.mul_le_mul hI.good.h19 hI.good.w19
  unfold Goban.getEmptyCoords
  rw [hI.size]
  dsimp only [Dim.sz]
  rw [show assertM (decide (n.h * n.w ≤ b.board.length)) = .ok () by
      rw [hI.rep.blen]; unfold assertM; rw [if_pos (by rw [decide_eq_true_eq]; exact hle)], ok_bind,
    hI.board_take (n.h * n.w) hle, zipIdx_map_range, List.mapM_map,
    mapM_ok (h := fun i => if decide (Spec.cell n b.view i = none) then some (Spec.listed n i) else none)]
  · rw [ok_bind, filterMap_map_id, filterMap_if]
  · intro i hi
    have hlt := List.mem_range.1 hi
    have h0 : ¬ (n.h = 0 ∨ n.w = 0) := by
      rintro (h' | h') <;> rw [h'] at hlt <;> simp at hlt
    have e1 : oneTo2dim (n.h, n.w) i = .ok (Spec.listed n i) := by
      unfold oneTo2dim
      rw [if_neg h0]; rfl
    cases hbd : b.bd i with
    | none =>
      rw [if_pos (by simpa using (cell_none hI i).2 hbd)]
      show (match b.bd i with | none => _ | some _ => _) = _
      rw [hbd]; dsimp only; rw [e1]; rfl
    | some k =>
      rw [if_neg (by
        simp only [decide_eq_true_eq]
        intro h'; rw [(cell_none hI i).1 h'] at hbd; cases hbd)]
      show (match b.bd i with | none => _ | some _ => _) = _
      rw [hbd]

/-- **C83**, `to_vec` for every size: the 361 cells. -/
theorem C83_to_vec {b : Goban} (h : Board dbg n m b) : b.toVec = .ok ((List.range 361).map (Spec.cell n b.view)) := by
  rw [toVec_ok h.inv.1, show Spec.cell n b.view = b.col from funext (cell_col h.inv.1)]

/-- **C83**, `get_empty_idx` for every size: the indices of the cells that *do* show a stone. -/
theorem C83_empty_idx {b : Goban} (h : Board dbg n m b) :
    b.getEmptyIdx = (List.range 361).filter (fun i => (Spec.cell n b.view i).isSome) := by
  rw [getEmptyIdx_ok h.inv.1]
  congr 1
  funext i
  rw [cell_col h.inv.1]

/-- **C83**, `matrix` for every size: the cells in lines of the width, as many as fit into 361; without columns it panics. -/
theorem C83_matrix {b : Goban} (h : Board dbg n m b) : (n.w = 0 → b.matrix = panic) ∧
    (0 < n.w → b.matrix = .ok ((List.range (361 / n.w)).map (fun r =>
      (List.range n.w).map (fun c => Spec.cell n b.view (r * n.w + c))))) := by
  have hI := h.inv.1
  unfold Goban.matrix
  rw [hI.size]
  dsimp only [Dim.sz]
  refine ⟨fun h0 => by rw [h0]; rfl, fun hw => ?_⟩
  have h0 : assertM (n.w != 0) = .ok () := by
    unfold assertM; rw [if_pos (by simp; omega)]
  rw [h0, ok_bind, chunksExact_eq n.w hw _ _ (Nat.le_refl _), hI.rep.blen, List.mapM_map]
  apply mapM_ok
  intro r hr
  have hr := List.mem_range.1 hr
  have hle : r * n.w + n.w ≤ 361 := by
    have h1 : (r + 1) * n.w ≤ 361 / n.w * n.w := Nat.mul_le_mul_right n.w hr
    have h2 := Nat.div_mul_le_self 361 n.w
    rw [Nat.add_mul] at h1; omega
  have hrow : (b.board.drop (r * n.w)).take n.w = (List.range n.w).map (fun c => b.bd (r * n.w + c)) := by
    apply List.ext_getElem?
    intro i
    rw [List.getElem?_take, List.getElem?_map]
    by_cases hi : i < n.w
    · rw [if_pos hi, List.getElem?_drop, List.getElem?_range hi, hI.getElem?_board (by omega)]; rfl
    · rw [if_neg hi, List.getElem?_eq_none (by rw [List.length_range]; omega)]; rfl
  show ((b.board.drop (r * n.w)).take n.w).mapM _ = _
  rw [hrow, List.mapM_map]
  apply mapM_ok
  intro c _
  rw [cell_col hI]
  exact col_bind hI.rep

/-- Non-vacuity of C83: a board with a stone past the first 105 = 361 mod 256 cells, and a board of 6 rows and 3 columns, where an
index past the points is listed as the coordinates of a point. -/
example : ∃ g, Board false 19 2 g ∧ (g.getCoordsByColor false (some .black) = .ok [(5, 9)] ∧
    g.getColor (5, 10) = .ok (some .black) : Bool) = true :=
  mkBoard_exists (l := [.push 5 9 .black, .push 5 10 .black]) (by decide +kernel)

example : ∃ g, Board true ⟨6, 3⟩ 2 g ∧ (g.getCoordsByColor true (some .black) = .ok [(1, 2)] ∧
    g.getColor (4, 0) = .ok (some .black) : Bool) = true :=
  mkBoard_exists (l := [.push 1 2 .black, .push 4 0 .black]) (by decide +kernel)

example : ∃ g, Board true ⟨6, 3⟩ 1 g ∧ (g.getEmptyCoords = .ok [(0, 0), (0, 1), (0, 2), (0, 0), (0, 1), (0, 2), (1, 0), (1, 1),
    (1, 0), (1, 1), (1, 2), (2, 0), (2, 1), (2, 2), (2, 0), (2, 1), (2, 2)] : Bool) = true :=
  mkBoard_exists (l := [.push 1 2 .black]) (by decide +kernel)

/-! ## C82 -/

namespace Sgf

/-- A coordinate 0 is taken for 256, the other sides of a byte. -/
def wrap (x : Nat) : Nat := if x = 0 then 256 else x

/-- How a token is read: sides modulo 256, a coordinate 0 as 256. -/
def Token.read : Token → Token
  | .size x y => .size (x % 256) (y % 256)
  | .add c x y => .add c (wrap x) (wrap y)
  | t => t

/-- How an action is read: a coordinate 0 as 256. -/
def Action.read : Action → Action
  | .move col line => .move (wrap col) (wrap line)
  | .pass => .pass

/-- In a debug build a coordinate 0 stops the import. -/
def Action.Bad (dbg : Bool) : Action → Prop
  | .move col line => dbg = true ∧ (col = 0 ∨ line = 0)
  | .pass => False

theorem subU8_read {x : Nat} (h : dbg = true → x ≠ 0) : subU8 dbg x 1 = subU8 dbg (wrap x) 1 := by
  unfold wrap
  split
  · rename_i h0
    subst h0
    cases dbg with
    | true => exact absurd rfl (h rfl)
    | false => rfl
  · rfl

theorem wrap_pos (x : Nat) : 1 ≤ wrap x := by
  unfold wrap; split <;> omega

theorem Token.read_valid {t : Token} (h : ¬ t.Bad dbg) : t.read.Valid := by
  cases t with
  | size x y => exact ⟨Nat.mod_lt _ (by decide), Nat.mod_lt _ (by decide)⟩
  | add c x y => exact ⟨wrap_pos _, wrap_pos _⟩
  | rule r => exact h
  | game go =>
    cases go with
    | true => exact rfl
    | false => exact absurd rfl h
  | unknown k v =>
    intro hk
    by_cases h1 : v = "B"
    · exact Or.inl h1
    · by_cases h2 : v = "W"
      · exact Or.inr h2
      · exact absurd ⟨hk, h1, h2⟩ h
  | _ => trivial

theorem rootToken_read {t : Token} (h : ¬ t.Bad dbg) (b : GameBuilder) : rootToken dbg b t.read = rootToken dbg b t := by
  cases t with
  | size x y =>
    show (Except.ok (b.setSize (u8 (x % 256), u8 (y % 256))) : M GameBuilder) = .ok (b.setSize (u8 x, u8 y))
    unfold u8
    rw [Nat.mod_mod, Nat.mod_mod]
  | add c x y =>
    have hx : dbg = true → x ≠ 0 := fun hd h0 => h ⟨hd, Or.inl h0⟩
    have hy : dbg = true → y ≠ 0 := fun hd h0 => h ⟨hd, Or.inr h0⟩
    unfold Token.read rootToken
    dsimp only
    rw [subU8_read hx, subU8_read hy]
  | _ => rfl

theorem plToken_read (t : Token) (b : GameBuilder) : plToken b t.read = plToken b t := by cases t <;> rfl

theorem foldlM_congr {α β} {f f' : β → α → M β} : ∀ (l : List α) (b : β), (∀ a ∈ l, ∀ b, f b a = f' b a) → l.foldlM f b = l.foldlM f' b
  | [], _, _ => rfl
  | a :: l, b, h => by
    rw [List.foldlM_cons, List.foldlM_cons, h a (by simp)]
    congr 1
    funext b'
    exact foldlM_congr l b' (fun a ha => h a (by simp [ha]))

theorem rootNode_read {root : List Token} (h : ∀ t ∈ root, ¬ t.Bad dbg) (b : GameBuilder) :
    rootNode dbg b (root.map Token.read) = rootNode dbg b root := by
  unfold rootNode
  rw [List.foldlM_map]
  refine foldlM_congr _ _ (fun t ht b => ?_)
  rw [rootToken_read (h t ht)]
  congr 1
  funext b
  rw [List.foldlM_map]
  exact foldlM_congr _ _ (fun t _ b => plToken_read t b)

theorem toMove_read {a : Action} (h : ¬ a.Bad dbg) : a.toMove dbg = .ok a.read.point := by
  cases a with
  | pass => rfl
  | move col line =>
    have hx : dbg = true → col ≠ 0 := fun hd h0 => h ⟨hd, Or.inl h0⟩
    have hy : dbg = true → line ≠ 0 := fun hd h0 => h ⟨hd, Or.inr h0⟩
    unfold Action.toMove Action.read Action.point
    dsimp only
    rw [subU8_read hx, subU8_read hy]
    unfold subU8
    rw [if_pos (wrap_pos _), ok_bind, if_pos (wrap_pos _)]
    rfl

theorem toMove_bad {a : Action} (h : a.Bad dbg) : a.toMove dbg = panic := by
  cases a with
  | pass => exact h.elim
  | move col line =>
    obtain ⟨hd, h⟩ := h
    subst hd
    unfold Action.toMove subU8
    dsimp only
    rcases h with rfl | rfl
    · by_cases hl : 1 ≤ line
      · rw [if_pos hl]; rfl
      · rw [if_neg hl]; rfl
    · rfl

theorem leading_cons (node : List Token) (rest : List (List Token)) :
    leading (node :: rest) = leading [node] ++ leading rest := List.filterMap_append (l := [node])

theorem nodeMoves_read : ∀ (rest : List (List Token)),
    ((∃ a ∈ leading rest, a.Bad dbg) → rest.mapM (nodeMove dbg) = (panic : M _)) ∧
    ((∀ a ∈ leading rest, ¬ a.Bad dbg) → ∃ ms, rest.mapM (nodeMove dbg) = (.ok ms : M _) ∧
      ms.filterMap id = (leading rest).map (fun a => a.read.point))
  | [] => ⟨fun ⟨a, ha, _⟩ => (by cases ha), fun _ => ⟨[], rfl, rfl⟩⟩
  | node :: rest => by
    obtain ⟨ih1, ih2⟩ := nodeMoves_read rest
    have key : (∃ a, leading [node] = [a] ∧ nodeMove dbg node = (do let m ← a.toMove dbg; .ok (some m))) ∨
        (leading [node] = [] ∧ nodeMove dbg node = .ok none) := by
      cases node with
      | nil => exact Or.inr ⟨rfl, rfl⟩
      | cons t node =>
        cases t with
        | move c a => exact Or.inl ⟨a, rfl, rfl⟩
        | _ => exact Or.inr ⟨rfl, rfl⟩
    rw [List.mapM_cons, leading_cons]
    rcases key with ⟨a, h1, h2⟩ | ⟨h1, h2⟩
    · rw [h1, h2]
      by_cases ha : a.Bad dbg
      · rw [toMove_bad ha]
        exact ⟨fun _ => rfl, fun h => absurd ha (h a (by simp))⟩
      · rw [toMove_read ha]
        refine ⟨fun hb => ?_, fun hb => ?_⟩
        · rw [ih1 (by
            obtain ⟨a', ha', hb'⟩ := hb
            rcases List.mem_cons.1 ha' with rfl | h3
            · exact absurd hb' ha
            · exact ⟨a', h3, hb'⟩)]; rfl
        · obtain ⟨ms, e, hm⟩ := ih2 (fun a' ha' => hb a' (by simp [ha']))
          rw [e]
          exact ⟨some a.read.point :: ms, rfl, by simpa using hm⟩
    · rw [h1, h2]
      refine ⟨fun hb => ?_, fun hb => ?_⟩
      · rw [ih1 hb]; rfl
      · obtain ⟨ms, e, hm⟩ := ih2 hb
        rw [e]
        exact ⟨none :: ms, rfl, by simpa using hm⟩

/-- **C82**: what the import does with every record. Without nodes it gives a new 19 × 19 game with Chinese rules. If the root holds
a bad token, or a later node begins with an action that is bad, it panics. Otherwise it builds the game the root describes, the
tokens being read modulo 256, and plays on it the actions that are the first property of a later node, by the players in turn:
the colours recorded, and all other properties of later nodes, have no effect. -/
theorem C82_from_sgf :
    fromNodes dbg [] = Game.new .nineteen CHINESE ∧
    (∀ root rest, (∃ t ∈ root, t.Bad dbg) ∨ (∃ a ∈ leading rest, a.Bad dbg) → fromNodes dbg (root :: rest) = panic) ∧
    (∀ root rest, (∀ t ∈ root, ¬ t.Bad dbg) → (∀ a ∈ leading rest, ¬ a.Bad dbg) → fromNodes dbg (root :: rest) = do
      let g ← (rootSays (root.map Token.read)).buildInner dbg
      (leading rest).foldlM (fun g a => g.play dbg a.read.point) g) := by
  have hroot : ∀ root : List Token, (∀ t ∈ root, ¬ t.Bad dbg) → rootNode dbg .default root = .ok (rootSays (root.map Token.read)) := by
    intro root h
    rw [← rootNode_read h]
    refine C30_root_partial (fun t ht => ?_)
    obtain ⟨t', ht', rfl⟩ := List.mem_map.1 ht
    exact Token.read_valid (h t' ht')
  refine ⟨rfl, ?_, ?_⟩
  · intro root rest h
    unfold fromNodes
    dsimp only
    by_cases hr : ∃ t ∈ root, t.Bad dbg
    · obtain ⟨t, ht, hb⟩ := hr
      rw [rootNode_bad ht hb]; rfl
    · rw [hroot root (fun t ht hb => hr ⟨t, ht, hb⟩), ok_bind, List.drop_one, List.tail_cons,
        (nodeMoves_read rest).1 (h.resolve_left hr)]
      rfl
  · intro root rest hr hv
    obtain ⟨ms, e, hm⟩ := (nodeMoves_read (dbg := dbg) rest).2 hv
    unfold fromNodes
    dsimp only
    rw [hroot root hr, ok_bind, List.drop_one, List.tail_cons, e, ok_bind, hm]
    unfold GameBuilder.buildInner
    have e1 : ∀ l, ((rootSays (root.map Token.read)).setMoves l).start dbg = (rootSays (root.map Token.read)).start dbg := fun _ => rfl
    rw [e1]
    cases e2 : (rootSays (root.map Token.read)).start dbg with
    | error _ => rfl
    | ok g =>
      rw [ok_bind, ok_bind]
      have e3 : (rootSays (root.map Token.read)).moves.foldlM (fun g m => g.play dbg m) g = .ok g := rfl
      rw [e3, ok_bind]
      show ((leading rest).map (fun a => a.read.point)).foldlM (fun g m => g.play dbg m) g = _
      rw [List.foldlM_map]

/-- Non-vacuity of C82: a side of 261, a stone recorded for White that becomes black, a comment before a move; a coordinate 0. -/
example : okAnd (fromNodes true [[.size 261 261], [.move .white (.move 1 2)], [.other, .move .black (.move 3 3)]])
    (fun g => g.goban.size == (5, 5) && g.goban.numberOfStones == (1, 0) && g.goban.getColor (1, 0) == .ok (some .black)) = true ∧
    Action.Bad true (.move 0 3) ∧ fromNodes true [[.size 5 5], [.move .black (.move 0 3)]] = panic ∧
    Token.Bad true (.add .black 0 3) ∧ ¬ Token.Bad false (.add .black 0 3) := by
  refine ⟨by decide +kernel, ⟨rfl, Or.inl rfl⟩, by decide +kernel, ⟨rfl, Or.inl rfl⟩, fun h => by cases h.1⟩

end Sgf
end Model
