import Verif.Proofs.AnySize
import Verif.Props.Hidden
import Verif.Props.Slices
/-!
# Boards of every size and any coordinates

C98: what the public calls do on boards whose width need not divide the height, and with pairs that need not be on the board.
-/

namespace Model
open Spec (Put)

variable {dbg : Bool} {s : Size} {m b w : Nat} {g : Game}

/-! ### Building witnesses -/

/-- Plays a list of moves, refusing stones on occupied cells. -/
def anyFrom (dbg : Bool) (g : Game) : List Move → M Game
  | [] => .ok g
  | .play x y :: l => do
    assertM (g.goban.getColor (x, y) == .ok none)
    let g ← g.play dbg (.play x y)
    anyFrom dbg g l
  | mv :: l => do
    let g ← g.play dbg mv
    anyFrom dbg g l

theorem anyFrom_game : ∀ {l : List Move} {b w : Nat} {g g' : Game}, AnyGame dbg s b w g → anyFrom dbg g l = .ok g' →
    ∃ b' w', AnyGame dbg s b' w' g'
  | [], b, w, g, g', h, e => by cases e; exact ⟨b, w, h⟩
  | .play x y :: l, b, w, g, g', h, e => by
    unfold anyFrom at e
    obtain ⟨_, ha, e⟩ := bind_eq_ok e
    obtain ⟨g1, e1, e⟩ := bind_eq_ok e
    have := assertM_eq_ok ha
    exact anyFrom_game (.play h (by simpa using this) e1) e
  | .pass :: l, b, w, g, g', h, e => by
    unfold anyFrom at e
    obtain ⟨g1, e1, e⟩ := bind_eq_ok e
    exact anyFrom_game (.pass h e1) e
  | .resign c :: l, b, w, g, g', h, e => by
    unfold anyFrom at e
    obtain ⟨g1, e1, e⟩ := bind_eq_ok e
    exact anyFrom_game (.resign h e1) e

theorem anyGame_exists {size : GobanSizes} {rule : Rule} {l : List Move} {f : Game → Bool}
    (e : okAnd (do let g ← Game.new size rule; anyFrom dbg g l) f = true) :
    ∃ b w g, AnyGame dbg size.toSize b w g ∧ f g = true := by
  obtain ⟨g, e1, e2⟩ := okAnd_iff.1 e
  obtain ⟨g0, e0, e1⟩ := bind_eq_ok e1
  obtain ⟨b, w, h⟩ := anyFrom_game (.new rfl e0) e1
  exact ⟨b, w, g, h, e2⟩

/-! ### Facts for both kinds of sizes -/

theorem AnyBoard.rep {g : Goban} (h : AnyBoard dbg s m g) : Rep g ∧ g.zobristHash = hashFn g.col 361 ∧ g.size = s := by
  by_cases hz : s.1 = 0 ∨ s.2 = 0
  · obtain ⟨h1, h2, h3, _⟩ := new_any (h.zero hz).1
    exact ⟨h1, h2, h3⟩
  · obtain ⟨h1, h2, _⟩ := h.weak (by omega) (by omega)
    exact ⟨h1.rep, h1.hash, h2⟩

theorem AnyGame.rep (h : AnyGame dbg s b w g) : Rep g.goban ∧ g.goban.size = s := by
  by_cases hz : s.1 = 0 ∨ s.2 = 0
  · obtain ⟨h1, h2, h3, _⟩ := new_any (h.zero hz).1
    exact ⟨h1, h3⟩
  · obtain ⟨h1, h2, _⟩ := h.wgame (by omega) (by omega)
    exact ⟨h1.weak.rep, h2⟩

theorem AnyGame.insert (h : AnyGame dbg s b w g) : ∃ l, historyInsert g.history g.goban = .ok l := by
  by_cases hz : s.1 = 0 ∨ s.2 = 0
  · rw [(h.zero hz).2.1]; exact ⟨_, rfl⟩
  · obtain ⟨h1, h2, _⟩ := h.wgame (by omega) (by omega)
    obtain ⟨l, e, _⟩ := h1.insert
    exact ⟨l, e⟩

/-! ### C98 -/

/-- **C98**, the cells. `to_vec` lists 361 cells; `get_color` of a pair is the cell number `x * height + y`, and a panic past the table;
`number_of_stones` counts the cells of each colour. -/
theorem C98_cells {g : Goban} (h : AnyBoard dbg s m g) : ∃ v, g.Cells v ∧
    (∀ x y, g.getColor (x, y) = match v[x * s.1 + y]? with
      | some c => .ok c
      | none => panic) ∧
    g.numberOfStones = (v.count (some .black), v.count (some .white)) := by
  obtain ⟨hr, _, hs⟩ := h.rep
  refine ⟨_, hr.cells, ?_, ?_⟩
  · intro x y
    have he : twoTo1dim g.size (x, y) = x * s.1 + y := by rw [hs]; rfl
    by_cases hi : x * s.1 + y < 361
    · rw [cells_get hi]
      show g.getColorIdx _ = _
      rw [he, hr.getColorIdx hi]
    · rw [List.getElem?_eq_none (by simp; omega)]
      exact hr.getColor_beyond (by rw [he]; omega)
  · rw [hr.numberOfStones, count_cells, count_cells]

/-- **C98**, the groups share out the occupied cells. -/
theorem C98_groups {g : Goban} (h : AnyBoard dbg s m g) {v : List MaybeColor} (hv : g.Cells v) : ∃ L, g.Groups dbg v L := by
  rw [h.rep.1.cells_eq hv]
  by_cases hz : s.1 = 0 ∨ s.2 = 0
  · obtain ⟨h1, _, _, h4, h5, _⟩ := new_any (h.zero hz).1
    refine ⟨fun _ => [], fun _ _ => rfl, ?_, ?_, ?_⟩
    · intro k grp hk
      unfold Groups.chainAt at hk
      rw [h4] at hk
      cases hk
    · intro i c hi
      have := (cells_some.1 hi).2
      rw [h5] at this; cases this
    · intro i k j hi; cases hi
  · obtain ⟨h1, _⟩ := h.weak (by omega) (by omega)
    obtain ⟨L, hL, _⟩ := h1.groups (dbg := dbg)
    exact ⟨L, hL⟩

/-- **C98**, the hash. Boards with the same cells have the same `zobrist_hash`, whatever their sizes and the way they were built. -/
theorem C98_hash {dbg' : Bool} {s' : Size} {m' : Nat} {g g' : Goban} (h : AnyBoard dbg s m g) (h' : AnyBoard dbg' s' m' g')
    {v : List MaybeColor} (hv : g.Cells v) (hv' : g'.Cells v) : g.zobristHash = g'.zobristHash := by
  obtain ⟨hr, hh, _⟩ := h.rep
  obtain ⟨hr', hh', _⟩ := h'.rep
  have e := (hr.cells_eq hv).symm.trans (hr'.cells_eq hv')
  rw [hh, hh']
  apply hashFn_congr
  intro i hi
  have := congrArg (fun l => l[i]?) e
  rw [cells_get hi, cells_get hi] at this
  exact Option.some.inj this

theorem Goban.push_ends {g : Goban} {p : Coord} {c : Color} (h : Ends (g.pushWthFeedback dbg p c)) : Ends (g.push dbg p c) := by
  unfold Goban.push
  have : ∀ x : Bool, Ends (debugAssert dbg x) := by
    intro x
    unfold debugAssert
    exact .ite .panic .ok
  exact (this _).bind (fun _ _ => (this _).bind (fun _ _ => h.bind (fun _ _ => .ok)))

/-- **C98**, `push` on an empty cell. It changes that one cell; or it panics, which in a release build only happens with an empty side
or after 65535 stones. -/
theorem C98_push {g : Goban} (h : AnyBoard dbg s m g) {v : List MaybeColor} (hv : g.Cells v) {x y : Nat} {c : Color}
    (he : v[x * s.1 + y]? = some none) :
    (∃ g', g.push dbg (x, y) c = .ok g' ∧ g'.Cells (v.set (x * s.1 + y) (some c))) ∨
    (g.push dbg (x, y) c = panic ∧ (dbg = true ∨ s.1 = 0 ∨ s.2 = 0 ∨ 65535 ≤ m)) := by
  have hev := h.rep.1.cells_eq hv
  subst hev
  obtain ⟨hi, hcol⟩ := cells_some.1 he
  have heq : twoTo1dim g.size (x, y) = x * s.1 + y := by rw [h.rep.2.2]; rfl
  by_cases hz : s.1 = 0 ∨ s.2 = 0
  · refine Or.inr ⟨?_, by tauto⟩
    unfold Goban.push
    have : ∀ b : Bool, (debugAssert dbg b = .ok () ∨ debugAssert dbg b = panic) := by
      intro b; unfold debugAssert; split
      · exact Or.inr rfl
      · exact Or.inl rfl
    have hp : g.pushWthFeedback dbg (x, y) c = panic := push_zero (by rw [h.rep.2.2]; exact hz) _ _
    rcases this (decide ((x, y).1 < g.size.1)) with e | e <;> rw [e]
    · rcases this (decide ((x, y).2 < g.size.2)) with e' | e' <;> rw [ok_bind, e']
      · rw [ok_bind, hp]; rfl
      · rfl
    · rfl
  obtain ⟨h1, h2, h3⟩ := h.weak (by omega) (by omega)
  have hb : g.bd (twoTo1dim g.size (x, y)) = none := by rw [heq]; exact h1.rep.col_none_iff.1 hcol
  have hend : Ends (g.push dbg (x, y) c) := Goban.push_ends (Ends.push h1.rep h1.h19 h1.w19 (by rw [heq]; exact hi) hb)
  have hle : Le (g.push dbg (x, y) c) (g.push false (x, y) c) := by
    cases dbg with
    | false => exact .refl _
    | true => exact Goban.push_le ..
  have hrel : g.push false (x, y) c = (do let f ← g.pushWthFeedback false (x, y) c; .ok f.goban) := rfl
  rcases push_release (c := c) h1 rfl (by rw [heq]; exact hi) hb with ⟨f, ef, hf⟩ | ⟨ef, hfull⟩
  · rw [ef, ok_bind] at hrel
    rcases hend.le hle with e | ⟨g', e, e'⟩
    · cases dbg with
      | false => rw [hrel] at e; cases e
      | true => exact Or.inr ⟨e, Or.inl rfl⟩
    · rw [hrel] at e'
      cases e'
      refine Or.inl ⟨_, e, ?_⟩
      have : (((List.range 361).map g.col).set (x * s.1 + y) (some c)) = (List.range 361).map f.goban.col := by
        apply List.ext_getElem?
        intro i
        rw [List.getElem?_set]
        by_cases hi' : i < 361
        · rw [cells_get hi', cells_get hi', hf.col i, heq]
          by_cases hxi : x * s.1 + y = i
          · subst hxi; simp [hi]
          · rw [if_neg hxi, if_neg (fun h => hxi h.symm)]
        · rw [List.getElem?_eq_none (by simp; omega), List.getElem?_eq_none (by simp; omega), if_neg (by omega)]
      rw [this]
      exact hf.weak.rep.cells
  · rcases hend.le hle with e | ⟨g', e, e'⟩
    · exact Or.inr ⟨e, by right; right; right; omega⟩
    · rw [hrel, ef] at e'; cases e'

/-- **C98**, `remove_chain` of a live group empties exactly its cells; a release build always returns. -/
theorem C98_remove {g : Goban} (h : AnyBoard dbg s m g) {v : List MaybeColor} (hv : g.Cells v) : ∃ L, g.Groups dbg v L ∧
    ∀ k, g.Live k → (∃ g' v', g.removeChain dbg k = .ok g' ∧ g'.Cells v' ∧
        ∀ i : Nat, v'[i]? = if i ∈ L k then some none else v[i]?) ∨
      (g.removeChain dbg k = panic ∧ dbg = true) := by
  have hev := h.rep.1.cells_eq hv
  subst hev
  by_cases hz : s.1 = 0 ∨ s.2 = 0
  · obtain ⟨L, hL⟩ := C98_groups h hv
    refine ⟨L, hL, ?_⟩
    rintro k ⟨_, hk⟩
    unfold Groups.chainAt at hk
    rw [(new_any (h.zero hz).1).2.2.2.1] at hk
    cases hk
  obtain ⟨h1, h2, h3⟩ := h.weak (by omega) (by omega)
  obtain ⟨L, hL, hLb⟩ := h1.groups (dbg := dbg)
  refine ⟨L, hL, ?_⟩
  rintro k ⟨gk, hk⟩
  have hgk := chainAt_iff.1 hk
  obtain ⟨g', e', hr⟩ := remove_release h1 hgk
  have hle : Le (g.removeChain dbg k) (g.removeChain false k) := by
    cases dbg with
    | false => exact .refl _
    | true => exact Goban.removeChain_le ..
  rcases (Ends.removeChain (dbg := dbg) h1.rep hgk).le hle with e | ⟨g'', e, e2⟩
  · cases dbg with
    | false => rw [e'] at e; cases e
    | true => exact Or.inr ⟨e, rfl⟩
  · rw [e'] at e2
    cases e2
    refine Or.inl ⟨_, _, e, hr.weak.rep.cells, ?_⟩
    intro i
    by_cases hi : i < 361
    · rw [cells_get hi, cells_get hi, hr.col i]
      have : i ∈ L k ↔ g.bd i = some k := by
        constructor
        · exact hLb i k
        · intro hb
          obtain ⟨j, hj⟩ := hL.every i gk.color (by rw [cells_get hi, col_of_bd hb hgk])
          have := hLb i j hj
          rw [hb] at this
          cases this
          exact hj
      by_cases hm : i ∈ L k
      · rw [if_pos hm, if_pos (this.1 hm)]
      · rw [if_neg hm, if_neg (fun h => hm (this.2 h))]
    · rw [List.getElem?_eq_none (by simp; omega), List.getElem?_eq_none (by simp; omega)]
      split
      · rename_i hm; exact absurd (h1.rep.bd_lt (hLb i k hm)) hi
      · rfl

/-- **C98**, no stone is lost: the stones put by each player are those on the cells and those among the prisoners. -/
theorem C98_count (h : AnyGame dbg s b w g) {v : List MaybeColor} (hv : g.goban.Cells v) :
    v.count (some .black) + g.prisoners.2 = b ∧ v.count (some .white) + g.prisoners.1 = w := by
  have hev := h.rep.1.cells_eq hv
  subst hev
  rw [count_cells, count_cells]
  by_cases hz : s.1 = 0 ∨ s.2 = 0
  · obtain ⟨e, _, rfl, rfl, hp⟩ := h.zero hz
    have h5 := (new_any e).2.2.2.2.1
    have : ∀ c, cnt g.goban.col c 361 = 0 := by
      intro c
      unfold cnt
      rw [List.countP_eq_zero]
      intro i _
      simp [h5 i]
    rw [this, this, hp]
    exact ⟨rfl, rfl⟩
  · obtain ⟨_, _, _, h4⟩ := h.wgame (by omega) (by omega)
    exact ⟨h4 .black, h4 .white⟩

/-- **C98**, `play` on an empty cell. The stone is put on the cell; whole groups of the opponent may vanish, or, only where the rule
allows suicide, the group of the stone with it. Otherwise the call panics, which in a release build only happens with an empty side or
after 65535 stones. It never hangs. -/
theorem C98_play (h : AnyGame dbg s b w g) {v : List MaybeColor} (hv : g.goban.Cells v) {x y : Nat}
    (he : v[x * s.1 + y]? = some none) :
    (∃ g' v', g.play dbg (.play x y) = .ok g' ∧ g'.goban.Cells v' ∧ Put (!g.rule.flagIllegal.suicide) v v' (x * s.1 + y) g.turn ∧
      (∃ L, g.goban.Groups dbg v L ∧ ∀ k, ∀ i ∈ L k, ∀ j ∈ L k, v'[i]? = v'[j]?) ∧
      g'.turn = g.turn.opp ∧ g'.passes = 0 ∧ g'.outcome = g.outcome ∧ g'.rule = g.rule) ∨
    (g.play dbg (.play x y) = panic ∧ (dbg = true ∨ s.1 = 0 ∨ s.2 = 0 ∨ 65535 ≤ b + w)) := by
  have hev := h.rep.1.cells_eq hv
  subst hev
  obtain ⟨hi, hcol⟩ := cells_some.1 he
  have heq : twoTo1dim g.goban.size (x, y) = x * s.1 + y := by rw [h.rep.2]; rfl
  by_cases hz : s.1 = 0 ∨ s.2 = 0
  · exact Or.inr ⟨play_zero (by rw [h.rep.2]; exact hz) (h.zero hz).2.1 _ _, by tauto⟩
  obtain ⟨h1, h2, h3, h4⟩ := h.wgame (by omega) (by omega)
  have hb : g.goban.bd (twoTo1dim g.goban.size (x, y)) = none := by rw [heq]; exact h1.weak.rep.col_none_iff.1 hcol
  have hc : twoTo1dim g.goban.size (x, y) < 361 := by rw [heq]; exact hi
  have hle : Le (g.play dbg (.play x y)) (g.play false (.play x y)) := by
    cases dbg with
    | false => exact .refl _
    | true => exact Game.play_le ..
  rcases (h1.ends_play (dbg := dbg) hc hb).le hle with e | ⟨g', e, e'⟩
  · refine Or.inr ⟨e, ?_⟩
    cases dbg with
    | true => exact Or.inl rfl
    | false =>
      rcases h1.play hc hb with ⟨g', e', _⟩ | ⟨_, hf⟩
      · rw [e'] at e; cases e
      · have : g.goban.chains.length = 65535 := hf
        right; right; right; omega
  · have hr := h1.played (dbg := false) (by
      show g.goban.getColorIdx _ = _
      rw [h1.weak.rep.getColorIdx hc, h1.weak.rep.col_none_iff.2 hb]) e'
    rw [heq] at hr
    refine Or.inl ⟨g', _, e, hr.game.weak.rep.cells, ⟨he, ?_, ?_, ?_⟩, ?_, hr.turn, hr.passes, hr.outcome, hr.rule⟩
    · intro i hi'
      have hi' : i < 361 := by simpa using hi'
      rw [List.getElem?_set, cells_get hi', cells_get hi']
      rcases hr.col i with h' | h'
      · exact Or.inl (by rw [h'])
      · right
        rw [h']
        by_cases hxi : x * s.1 + y = i
        · subst hxi; simp [hi]
        · rw [if_neg hxi, if_neg (fun h => hxi h.symm)]
    · intro hp i hi'
      obtain ⟨a1, a2⟩ := cells_some.1 hi'
      rw [cells_some]
      exact ⟨a1, hr.own (cells_some.1 hp).2 i a2⟩
    · intro hp
      rw [hr.sui (cells_some.1 hp).2]; rfl
    · obtain ⟨L, hL, hLb⟩ := h1.weak.groups (dbg := dbg)
      refine ⟨L, hL, ?_⟩
      intro k i hik j hjk
      have b1 := hLb i k hik
      have b2 := hLb j k hjk
      rw [cells_get (h1.weak.rep.bd_lt b1), cells_get (h1.weak.rep.bd_lt b2)]
      have := hr.whole i j k b1 b2
      unfold Goban.col
      rw [this]

/-- **C98**, a cell past the table: `play` and `get_color` panic, and so does `try_play` unless the game is paused. -/
theorem C98_beyond (h : AnyGame dbg s b w g) {x y : Nat} (hi : 361 ≤ x * s.1 + y) :
    g.goban.getColor (x, y) = panic ∧ g.play dbg (.play x y) = panic ∧
    g.tryPlay dbg (.play x y) = if g.passes = 2 then .ok (some .gamePaused, g) else panic := by
  have heq : twoTo1dim g.goban.size (x, y) = x * s.1 + y := by rw [h.rep.2]; rfl
  have hc := h.rep.1.getColor_beyond (c := (x, y)) (by rw [heq]; exact hi)
  refine ⟨hc, ?_, ?_⟩
  · obtain ⟨l, el⟩ := h.insert
    unfold Game.play
    dsimp only
    rw [el, ok_bind]
    have hoff : g.goban.nextStone.length ≤ twoTo1dim g.goban.size (x, y) := by rw [h.rep.1.nlen, heq]; exact hi
    cases e : g.goban.pushWthFeedback dbg (x, y) g.turn with
    | ok f => have := pushWthFeedback_lt e; omega
    | error f =>
      cases f with
      | panic => rfl
      | diverge => exact absurd e (Ends.push_off hoff)
  · unfold Game.tryPlay
    dsimp only
    rw [hc]
    split <;> rfl

theorem AnyGame.checked (h : AnyGame dbg s b w g) {x y : Nat} (hi : x * s.1 + y < 361) (r : IllegalRules) :
    (∃ e, g.checkPointBy dbg (x, y) r = .ok e) ∨
    (g.checkPointBy dbg (x, y) r = panic ∧ (dbg = true ∨ s.1 = 0 ∨ s.2 = 0 ∨ 65535 ≤ b + w)) := by
  have heq : twoTo1dim g.goban.size (x, y) = x * s.1 + y := by rw [h.rep.2]; rfl
  have hend : Ends (g.checkPointBy dbg (x, y) r) := by
    by_cases hz : s.1 = 0 ∨ s.2 = 0
    · unfold Game.checkPointBy
      dsimp only
      refine Ends.getColor.bind (fun o ho => .ite .ok ?_)
      refine Ends.bind (.ite Ends.checkSuicide .ok) (fun _ _ => .ite .ok ?_)
      refine Ends.bind (.ite Ends.checkKo .ok) (fun _ _ => .ite .ok ?_)
      refine Ends.bind (.ite Ends.checkEye .ok) (fun _ _ => .ite .ok ?_)
      refine Ends.bind (.ite ?_ .ok) (fun _ _ => .ite .ok .ok)
      unfold Game.checkSuperKo
      rw [(h.zero hz).2.1]
      exact .ok
    · exact (h.wgame (by omega) (by omega)).1.ends_checkPointBy _ _
  cases e : g.checkPointBy dbg (x, y) r with
  | ok r => exact Or.inl ⟨_, rfl⟩
  | error f =>
    cases f with
    | diverge => exact absurd e hend
    | panic =>
      refine Or.inr ⟨rfl, ?_⟩
      by_cases hz : s.1 = 0 ∨ s.2 = 0
      · tauto
      · obtain ⟨h1, h2, h3, _⟩ := h.wgame (by omega) (by omega)
        cases dbg with
        | true => exact Or.inl rfl
        | false =>
          rcases h1.checkPointBy (c := (x, y)) (by rw [heq]; exact hi) r with ⟨a, ea, _⟩ | ⟨_, hf⟩
          · rw [e] at ea; cases ea
          · have : g.goban.chains.length = 65535 := hf
            right; right; right; omega

/-- **C98**, `check_point`, `check_point_by`: they return or panic, in a release build only with an empty side or after 65535 stones. -/
theorem C98_check_point (h : AnyGame dbg s b w g) {x y : Nat} (hi : x * s.1 + y < 361) (r : IllegalRules) :
    (∃ e, g.checkPointBy dbg (x, y) r = .ok e ∧ (e = some .pointNotEmpty ↔ ∃ c, g.goban.getColor (x, y) = .ok (some c))) ∨
    (g.checkPointBy dbg (x, y) r = panic ∧ (dbg = true ∨ s.1 = 0 ∨ s.2 = 0 ∨ 65535 ≤ b + w)) := by
  have heq : twoTo1dim g.goban.size (x, y) = x * s.1 + y := by rw [h.rep.2]; rfl
  have hgc : g.goban.getColor (x, y) = .ok (g.goban.col (x * s.1 + y)) := by
    show g.goban.getColorIdx _ = _
    rw [heq, h.rep.1.getColorIdx hi]
  rcases h.checked hi r with ⟨e, he⟩ | h'
  · refine Or.inl ⟨e, he, ?_⟩
    rw [hgc]
    unfold Game.checkPointBy at he
    dsimp only at he
    rw [hgc, ok_bind] at he
    split at he
    · rename_i hs
      cases he
      obtain ⟨c, hc⟩ := Option.isSome_iff_exists.1 hs
      simp [hc]
    · rename_i hs
      have hn : g.goban.col (x * s.1 + y) = none := by simpa using hs
      rw [hn]
      constructor
      · rintro rfl
        obtain ⟨_, _, he⟩ := bind_eq_ok he
        split at he
        · cases he
        obtain ⟨_, _, he⟩ := bind_eq_ok he
        split at he
        · cases he
        obtain ⟨_, _, he⟩ := bind_eq_ok he
        split at he
        · cases he
        obtain ⟨_, _, he⟩ := bind_eq_ok he
        split at he
        · cases he
        · cases he
      · rintro ⟨c, hc⟩
        cases hc
  · exact Or.inr h'

/-- **C98**, `try_play` of any move. It returns or panics. When it refuses the game is unchanged; when it accepts, the move is the one
`play` makes, and a stone goes to an empty cell. In a release build it panics only for a cell past the table, with an empty side or
after 65535 stones. -/
theorem C98_try_play (h : AnyGame dbg s b w g) (mv : Move) :
    (∃ e g', g.tryPlay dbg mv = .ok (e, g') ∧ ((e ≠ none ∧ g' = g) ∨
      (e = none ∧ g.play dbg mv = .ok g' ∧ ∀ x y, mv = .play x y → g.goban.getColor (x, y) = .ok none))) ∨
    (g.tryPlay dbg mv = panic ∧ ∃ x y, mv = .play x y ∧ (dbg = true ∨ s.1 = 0 ∨ s.2 = 0 ∨ 65535 ≤ b + w ∨ 361 ≤ x * s.1 + y)) := by
  by_cases hp2 : g.passes = 2
  · refine Or.inl ⟨some .gamePaused, g, ?_, Or.inl ⟨by simp, rfl⟩⟩
    unfold Game.tryPlay
    rw [if_pos hp2]
  have hpass : g.passes < 2 := by
    have : g.passes ≤ 2 := by
      have h' := h
      clear hp2 h
      induction h' with
      | new _ e =>
        unfold Game.new at e
        obtain ⟨gb, e1, e⟩ := bind_eq_ok e
        cases e
        exact Nat.zero_le _
      | play _ _ e ih =>
        unfold Game.play at e
        obtain ⟨_, _, e⟩ := bind_eq_ok e
        obtain ⟨_, _, e⟩ := bind_eq_ok e
        obtain ⟨_, _, e⟩ := bind_eq_ok e
        cases e
        exact Nat.zero_le _
      | pass _ e ih =>
        unfold Game.play at e
        obtain ⟨_, ha, e⟩ := bind_eq_ok e
        have := assertM_eq_ok ha
        simp only [decide_eq_true_eq] at this
        cases e
        exact this
      | resign _ e ih => cases e; exact ih
      | resume _ ih => exact Nat.zero_le _
      | setKomi _ ih => exact ih
      | stone _ _ _ ih => exact ih
      | told _ ih => exact ih
    omega
  cases mv with
  | pass =>
    have e : g.play dbg .pass = .ok { g with turn := g.turn.opp, koPoint := none, passes := g.passes + 1 } := by
      unfold Game.play assertM
      dsimp only
      rw [if_pos (by simpa using hpass)]
      rfl
    refine Or.inl ⟨none, _, ?_, Or.inr ⟨rfl, e, fun x y h => by cases h⟩⟩
    unfold Game.tryPlay
    rw [if_neg hp2]
    dsimp only
    rw [e, ok_bind]
  | resign c =>
    refine Or.inl ⟨none, _, ?_, Or.inr ⟨rfl, rfl, fun x y h => by cases h⟩⟩
    unfold Game.tryPlay
    rw [if_neg hp2]
    rfl
  | play x y =>
    by_cases hi : 361 ≤ x * s.1 + y
    · refine Or.inr ⟨?_, x, y, rfl, by tauto⟩
      rw [(C98_beyond h hi).2.2, if_neg hp2]
    have heq : twoTo1dim g.goban.size (x, y) = x * s.1 + y := by rw [h.rep.2]; rfl
    have hgc : g.goban.getColor (x, y) = .ok (g.goban.col (x * s.1 + y)) := by
      show g.goban.getColorIdx _ = _
      rw [heq, h.rep.1.getColorIdx (by omega)]
    have htp : g.tryPlay dbg (.play x y) = (do
        if g.goban.col (x * s.1 + y) ≠ none then .ok (some .pointNotEmpty, g)
        else
          match ← g.checkPoint dbg (x, y) with
          | some e => .ok (some e, g)
          | none => do
            let g' ← g.play dbg (.play x y)
            .ok (none, g')) := by
      unfold Game.tryPlay
      rw [if_neg hp2]
      dsimp only
      rw [hgc, ok_bind]
      rfl
    rw [htp]
    by_cases hn : g.goban.col (x * s.1 + y) = none
    swap
    · rw [if_pos hn]
      exact Or.inl ⟨_, _, rfl, Or.inl ⟨by simp, rfl⟩⟩
    rw [if_neg (by simpa using hn)]
    rcases h.checked (by omega : x * s.1 + y < 361) g.rule.flagIllegal with ⟨e, he⟩ | ⟨he, hwhy⟩
    · have he' : g.checkPoint dbg (x, y) = .ok e := he
      rw [he', ok_bind]
      cases e with
      | some e => exact Or.inl ⟨_, _, rfl, Or.inl ⟨by simp, rfl⟩⟩
      | none =>
        dsimp only
        rcases C98_play h h.rep.1.cells (x := x) (y := y) (cells_some.2 ⟨by omega, hn⟩) with ⟨g', v', e', _⟩ | ⟨e', hwhy⟩
        · rw [e', ok_bind]
          refine Or.inl ⟨none, g', rfl, Or.inr ⟨rfl, rfl, ?_⟩⟩
          intro x' y' hm
          cases hm
          rw [hgc, hn]
        · rw [e']
          exact Or.inr ⟨rfl, x, y, rfl, by tauto⟩
    · have he' : g.checkPoint dbg (x, y) = panic := he
      rw [he']
      exact Or.inr ⟨rfl, x, y, rfl, by tauto⟩

/-- **C98**, a board with an empty side: `play` of a stone panics, and `try_play` never accepts one. -/
theorem C98_empty_side (h : AnyGame dbg s b w g) (hz : s.1 = 0 ∨ s.2 = 0) (x y : Nat) :
    g.play dbg (.play x y) = panic ∧ ∀ g', g.tryPlay dbg (.play x y) ≠ .ok (none, g') := by
  have hp := play_zero (dbg := dbg) (by rw [h.rep.2]; exact hz) (h.zero hz).2.1 x y
  refine ⟨hp, ?_⟩
  intro g' e
  rcases C98_try_play h (.play x y) with ⟨e1, g1, h1, h2⟩ | ⟨h1, _⟩
  · rw [e] at h1
    cases h1
    rcases h2 with ⟨h2, _⟩ | ⟨_, h2, _⟩
    · exact h2 rfl
    · rw [hp] at h2; cases h2
  · rw [e] at h1; cases h1

/-- The coordinates `get_empty_coords` lists. -/
theorem emptyCoords_any {b : Goban} (h : Weak b) : ∃ l, b.getEmptyCoords = .ok l ∧
    ∀ q ∈ l, twoTo1dim b.size q < 361 := by
  have harea : b.size.1 * b.size.2 ≤ 361 := Nat.mul_le_mul h.h19 h.w19
  unfold Goban.getEmptyCoords assertM
  dsimp only
  rw [if_pos (by simpa [h.rep.blen] using harea), ok_bind]
  have key : ∀ (l : List (Option Nat)) (k : Nat), k + l.length ≤ b.size.1 * b.size.2 →
      ∃ r, (l.zipIdx k).mapM (fun (x : Option Nat × Nat) => match x.1 with
        | none => do let c ← oneTo2dim b.size x.2; (.ok (some c) : M (Option Coord))
        | some _ => .ok none) = .ok r ∧ ∀ q, some q ∈ r → twoTo1dim b.size q < 361 := by
    intro l
    induction l with
    | nil => intro k _; exact ⟨[], rfl, fun q hq => by cases hq⟩
    | cons o l ih =>
      intro k hk
      rw [List.length_cons] at hk
      obtain ⟨r, er, hr⟩ := ih (k + 1) (by omega)
      rw [List.zipIdx_cons, List.mapM_cons]
      cases o with
      | some j =>
        dsimp only
        rw [ok_bind, er]
        refine ⟨none :: r, rfl, ?_⟩
        intro q hq
        rcases List.mem_cons.1 hq with h' | h'
        · cases h'
        · exact hr q h'
      | none =>
        dsimp only
        unfold oneTo2dim
        rw [if_neg (by simp [h.h0, h.w0]), ok_bind, ok_bind]
        unfold oneTo2dim at er
        rw [er]
        refine ⟨_ :: r, rfl, ?_⟩
        intro q hq
        rcases List.mem_cons.1 hq with h' | h'
        · cases h'
          unfold twoTo1dim u8
          dsimp only
          have hw : k % b.size.2 < b.size.2 := Nat.mod_lt _ (Nat.pos_of_ne_zero h.w0)
          have hd : k / b.size.1 < b.size.2 := (Nat.div_lt_iff_lt_mul (Nat.pos_of_ne_zero h.h0)).2 (by rw [Nat.mul_comm]; omega)
          have h1 : k / b.size.1 % 256 = k / b.size.1 := Nat.mod_eq_of_lt (by have := h.w19; omega)
          have h2 : k % b.size.2 % 256 = k % b.size.2 := Nat.mod_eq_of_lt (by have := h.w19; omega)
          rw [h1, h2]
          have h3 : k / b.size.1 * b.size.1 ≤ 18 * 19 := Nat.mul_le_mul (by have := h.w19; omega) h.h19
          have := h.w19
          omega
        · exact hr q h'
  obtain ⟨r, er, hr⟩ := key (b.board.take (b.size.1 * b.size.2)) 0 (by rw [List.length_take]; omega)
  refine ⟨r.filterMap id, (congrArg (fun (z : M (List (Option Coord))) => z >>= fun l => .ok (l.filterMap id)) er :), ?_⟩
  intro q hq
  obtain ⟨o, h1, h2⟩ := List.mem_filterMap.1 hq
  cases o with
  | none => cases h2
  | some q' => cases h2; exact hr q h1

/-- **C98**, `legals` and `legals_by` in a release build return a list of pairs that `check_point_by` accepts, for every size without an
empty side, unless 65535 stones have been put. -/
theorem C98_legals (h : AnyGame dbg s b w g) (hh : 0 < s.1) (hw : 0 < s.2) (hbw : b + w < 65535) (r : IllegalRules) :
    ∃ l, g.legalsBy false r = .ok l ∧ ∀ q ∈ l, g.goban.getColor q = .ok none ∧ g.checkPointBy false q r = .ok none := by
  obtain ⟨h1, h2, h3, _⟩ := h.wgame hh hw
  obtain ⟨l, el, hl⟩ := emptyCoords_any h1.weak
  unfold Game.legalsBy Game.pseudoLegals
  rw [el, ok_bind]
  have key : ∀ l : List Coord, (∀ q ∈ l, twoTo1dim g.goban.size q < 361) →
      ∃ k, l.mapM (fun c => do let e ← g.checkPointBy false c r; (.ok (if e.isNone then some c else none) : M (Option Coord))) = .ok k ∧
        ∀ q, some q ∈ k → g.goban.getColor q = .ok none ∧ g.checkPointBy false q r = .ok none := by
    intro l
    induction l with
    | nil => intro _; exact ⟨[], rfl, fun q hq => by cases hq⟩
    | cons c l ih =>
      intro hl
      obtain ⟨k, ek, hk⟩ := ih (fun q hq => hl q (by simp [hq]))
      rcases h1.checkPointBy (c := c) (hl c (by simp)) r with ⟨e, ee, he⟩ | ⟨_, hf⟩
      · rw [List.mapM_cons, ee, ok_bind, ok_bind, ek]
        refine ⟨_ :: k, rfl, ?_⟩
        intro q hq
        rcases List.mem_cons.1 hq with h' | h'
        · cases e with
          | some e => simp at h'
          | none =>
            simp at h'
            subst h'
            refine ⟨?_, ee⟩
            show g.goban.getColorIdx _ = _
            rw [h1.weak.rep.getColorIdx (hl q (by simp)), h1.weak.rep.col_none_iff.2 (he (by simp))]
        · exact hk q h'
      · have : g.goban.chains.length = 65535 := hf
        omega
  obtain ⟨k, ek, hk⟩ := key l hl
  rw [ek, ok_bind]
  refine ⟨_, rfl, ?_⟩
  intro q hq
  obtain ⟨o, h1, h2⟩ := List.mem_filterMap.1 hq
  cases o with
  | none => cases h2
  | some q' => cases h2; exact hk q h1

/-- On a 3 × 2 board the stone played on (1, 0) is reported on (1, 1). After four stones a release build shows cells 0, 3, 4 and 6
occupied and offers (0, 1) only; a debug build panics at the third stone. On a 3 × 3 board a release build accepts a stone on (5, 5), cell 20. -/
theorem C98_example :
    (∃ b w g, AnyGame false (3, 2) b w g ∧ (
      (g.goban.toVec.map (List.take 7)) = .ok [some .black, none, none, some .black, some .white, none, some .white] ∧
      g.legals false = .ok [(0, 1)] : Bool) = true) ∧
    (∃ b w g, AnyGame true (3, 2) b w g ∧ (g.goban.getColor (0, 0) = .ok none ∧ g.play true (.play 0 0) = panic : Bool) = true) ∧
    (∃ b w g, AnyGame false (3, 3) b w g ∧ (g.goban.getColorIdx 20 = .ok (some .black) ∧
      g.goban.getStones = .ok [{ coord := (6, 2), color := .black }] : Bool) = true) :=
  ⟨anyGame_exists (size := .custom 3 2) (rule := JAPANESE) (l := [.play 1 0, .play 1 1, .play 0 0, .play 2 0]) (by decide +kernel),
   anyGame_exists (size := .custom 3 2) (rule := JAPANESE) (l := [.play 1 0, .play 1 1]) (by decide +kernel),
   anyGame_exists (size := .custom 3 3) (rule := JAPANESE) (l := [.play 5 5]) (by decide +kernel)⟩

/-! ### C88: slices with stones after the last full row -/

theorem ofSlice_release {n : Nat} (hn0 : 0 < n) (hn : n ≤ 19) : ∀ (t : List MaybeColor) (k : Nat) {g : Goban} {m : Nat},
    k + t.length < (n + 1) * (n + 1) → AnyBoard false (n, n) m g → m ≤ k → (∀ j, k ≤ j → g.col j = none) →
    ((∀ j : Nat, 361 ≤ k + j → ∀ c : Color, t[j]? ≠ some (some c)) → ∃ g' m', (t.zipIdx k).foldlM (Goban.ofSliceStep false n) g = .ok g' ∧
      AnyBoard false (n, n) m' g' ∧ ∀ j, g'.col j = if j < k then g.col j else (t[j - k]?).join) ∧
    ((∃ (j : Nat) (c : Color), 361 ≤ k + j ∧ t[j]? = some (some c)) →
      (t.zipIdx k).foldlM (Goban.ofSliceStep false n) g = panic)
  | [], k, g, m, _, hb, _, hcol => by
    refine ⟨fun _ => ⟨g, m, rfl, hb, ?_⟩, ?_⟩
    · intro j
      split
      · rfl
      · rw [hcol j (by omega)]; simp
    · rintro ⟨j, c, _, h⟩; simp at h
  | o :: t, k, g, m, hk, hb, hm, hcol => by
    rw [List.length_cons] at hk
    rw [List.zipIdx_cons, List.foldlM_cons]
    have hsq : (n + 1) * (n + 1) = (n + 2) * n + 1 := by
      rw [Nat.add_mul, Nat.add_mul, Nat.mul_add]; omega
    have hk400 : (n + 2) * n ≤ 21 * 19 := Nat.mul_le_mul (by omega) hn
    have hrow : u8 (k / n) = k / n := by
      unfold u8
      refine Nat.mod_eq_of_lt (Nat.lt_of_le_of_lt (Nat.div_le_div_right (c := n) (by omega : k ≤ (n + 2) * n)) ?_)
      rw [Nat.mul_div_cancel _ hn0]; omega
    have hcl : u8 (k % n) = k % n := by
      unfold u8
      exact Nat.mod_eq_of_lt (by have := Nat.mod_lt k hn0; omega)
    have hix : k / n * n + k % n = k := by rw [Nat.mul_comm]; exact Nat.div_add_mod k n
    have e2 : oneTo2dim (n, n) k = .ok (k / n, k % n) := by
      unfold oneTo2dim
      rw [if_neg (by simp; omega), hrow, hcl]
    have shift : (∃ (j : Nat) (c : Color), 361 ≤ k + j ∧ (o :: t)[j]? = some (some c)) ↔
        ((361 ≤ k ∧ o ≠ none) ∨ ∃ (j : Nat) (c : Color), 361 ≤ k + 1 + j ∧ t[j]? = some (some c)) := by
      constructor
      · rintro ⟨j, c, h1, h2⟩
        cases j with
        | zero => simp at h2; exact Or.inl ⟨by omega, by rw [h2]; simp⟩
        | succ j => exact Or.inr ⟨j, c, by omega, by simpa using h2⟩
      · rintro (⟨h1, h2⟩ | ⟨j, c, h1, h2⟩)
        · cases o with
          | none => exact absurd rfl h2
          | some c => exact ⟨0, c, by omega, by simp⟩
        · exact ⟨j + 1, c, by omega, by simpa using h2⟩
    have tailNone : (∀ j : Nat, 361 ≤ k + j → ∀ c : Color, (o :: t)[j]? ≠ some (some c)) →
        ∀ j : Nat, 361 ≤ k + 1 + j → ∀ c : Color, t[j]? ≠ some (some c) := by
      intro h j hj c hc
      exact h (j + 1) (by omega) c (by simpa using hc)
    cases o with
    | none =>
      have e : Goban.ofSliceStep false n g (none, k) = .ok g := by
        unfold Goban.ofSliceStep
        rw [e2]; rfl
      rw [e, ok_bind]
      obtain ⟨h1, h2⟩ := ofSlice_release hn0 hn t (k + 1) (by omega) hb (by omega) (fun j hj => hcol j (by omega))
      refine ⟨?_, ?_⟩
      · intro h
        obtain ⟨g', m', a1, a2, a3⟩ := h1 (tailNone h)
        refine ⟨g', m', a1, a2, ?_⟩
        intro j
        rw [a3 j]
        by_cases hj : j < k
        · rw [if_pos hj, if_pos (by omega)]
        · rw [if_neg hj]
          by_cases hjk : j = k
          · subst hjk
            rw [if_pos (by omega), hcol j (Nat.le_refl _)]
            simp
          · rw [if_neg (by omega)]
            have : j - k = (j - (k + 1)) + 1 := by omega
            rw [this, List.getElem?_cons_succ]
      · intro h
        rcases shift.1 h with ⟨_, h'⟩ | h'
        · exact absurd rfl h'
        · exact h2 h'
    | some c =>
      have e : Goban.ofSliceStep false n g (some c, k) = g.push false (k / n, k % n) c := by
        unfold Goban.ofSliceStep
        rw [e2]; rfl
      rw [e]
      by_cases hk361 : k < 361
      · have hv := hb.rep.1.cells
        have hempty : ((List.range 361).map g.col)[k / n * (n, n).1 + k % n]? = some none := by
          show ((List.range 361).map g.col)[k / n * n + k % n]? = some none
          rw [hix, cells_get hk361, hcol k (Nat.le_refl _)]
        rcases C98_push hb hv hempty (c := c) with ⟨g1, e1, hg1⟩ | ⟨_, h'⟩
        swap
        · simp at h'
          omega
        rw [e1, ok_bind]
        have hb1 : AnyBoard false (n, n) (m + 1) g1 := by
          refine .push hb ?_ e1
          show g.getColorIdx (twoTo1dim g.size (k / n, k % n)) = _
          have : twoTo1dim g.size (k / n, k % n) = k := by rw [hb.rep.2.2]; exact hix
          rw [this, hb.rep.1.getColorIdx hk361, hcol k (Nat.le_refl _)]
        have hc1 : ∀ j, g1.col j = if j = k then some c else g.col j := by
          intro j
          have := hb1.rep.1.cells_eq hg1
          have hj := congrArg (fun l => l[j]?) this
          by_cases hj361 : j < 361
          · rw [cells_get hj361, List.getElem?_set, show k / n * (n, n).1 + k % n = k from hix] at hj
            by_cases hjk : k = j
            · subst hjk
              simp [hk361] at hj
              simp [← hj]
            · rw [if_neg hjk, cells_get hj361] at hj
              rw [if_neg (fun h => hjk h.symm)]
              exact (Option.some.inj hj).symm
          · rw [hb1.rep.1.col_ge (by omega), if_neg (by omega), hb.rep.1.col_ge (by omega)]
        obtain ⟨h1, h2⟩ := ofSlice_release hn0 hn t (k + 1) (by omega) hb1 (by omega)
          (fun j hj => by rw [hc1, if_neg (by omega)]; exact hcol j (by omega))
        refine ⟨?_, ?_⟩
        · intro h
          obtain ⟨g', m', a1, a2, a3⟩ := h1 (tailNone h)
          refine ⟨g', m', a1, a2, ?_⟩
          intro j
          rw [a3 j, hc1 j]
          by_cases hj : j < k
          · rw [if_pos hj, if_pos (by omega), if_neg (by omega)]
          · rw [if_neg hj]
            by_cases hjk : j = k
            · subst hjk
              rw [if_pos (by omega)]
              simp
            · rw [if_neg (by omega)]
              have : j - k = (j - (k + 1)) + 1 := by omega
              rw [this, List.getElem?_cons_succ]
        · intro h
          rcases shift.1 h with ⟨h', _⟩ | h'
          · omega
          · exact h2 h'
      · have hoff : g.nextStone.length ≤ twoTo1dim g.size (k / n, k % n) := by
          rw [hb.rep.1.nlen, hb.rep.2.2]
          show 361 ≤ k / n * n + k % n
          omega
        have ep : g.push false (k / n, k % n) c = panic := by
          show (do let f ← g.pushWthFeedback false (k / n, k % n) c; .ok f.goban) = _
          cases e : g.pushWthFeedback false (k / n, k % n) c with
          | ok f => have := pushWthFeedback_lt e; omega
          | error f =>
            cases f with
            | panic => rfl
            | diverge => exact absurd e (Ends.push_off hoff)
        rw [ep]
        refine ⟨?_, fun _ => rfl⟩
        intro h
        exact absurd (by simp) (h 0 (by omega) c)

/-- **C88** for `Goban::from` in a release build, `n` being the integer square root of the length, at most 19. The slice becomes the
first cells of the board, also the cells after the first `n²`, which no point of the board shows; the call panics iff a stone stands
at an index past the table of 361 cells. -/
theorem C88_release {n : Nat} {l : List MaybeColor} (h1 : n * n ≤ l.length) (h2 : l.length < (n + 1) * (n + 1)) (hn : n ≤ 19) :
    ((∀ (i : Nat) (c : Color), l[i]? = some (some c) → i < 361) → ∃ g m, Goban.ofSlice false l = .ok g ∧ AnyBoard false (n, n) m g ∧
      g.Cells ((l ++ List.replicate (361 - l.length) none).take 361)) ∧
    ((∃ (i : Nat) (c : Color), l[i]? = some (some c) ∧ 361 ≤ i) → Goban.ofSlice false l = panic) := by
  have hi := isqrt_eq h1 h2
  obtain ⟨g0, e0⟩ : ∃ g, Goban.new (n, n) = .ok g := by
    unfold Goban.new assertM
    rw [if_pos (by simp; omega)]
    exact ⟨_, rfl⟩
  have hof : Goban.ofSlice false l = l.zipIdx.foldlM (Goban.ofSliceStep false n) g0 := by
    unfold Goban.ofSlice
    dsimp only
    rw [hi, Nat.min_eq_left (by omega : n ≤ 255), e0, ok_bind]
  rw [hof]
  have hb0 : AnyBoard false (n, n) 0 g0 := .new e0
  have hc0 := (new_any e0).2.2.2.2.1
  have fin : ∀ {g : Goban}, Rep g → (∀ j, g.col j = (l[j]?).join) → g.Cells ((l ++ List.replicate (361 - l.length) none).take 361) := by
    intro g hr hc
    have : (l ++ List.replicate (361 - l.length) none).take 361 = (List.range 361).map g.col := by
      apply List.ext_getElem?
      intro j
      by_cases hj : j < 361
      · rw [cells_get hj, hc j, List.getElem?_take_of_lt hj]
        by_cases hjl : j < l.length
        · rw [List.getElem?_append_left hjl, List.getElem?_eq_getElem hjl]; rfl
        · rw [List.getElem?_append_right (by omega), List.getElem?_eq_none (by omega : l.length ≤ j),
            List.getElem?_replicate, if_pos (by omega)]
          rfl
      · rw [List.getElem?_eq_none (by simp; omega), List.getElem?_eq_none (by simp; omega)]
    rw [this]
    exact hr.cells
  by_cases hn0 : n = 0
  · subst hn0
    have hl : l = [] := List.eq_nil_of_length_eq_zero (by omega)
    subst hl
    refine ⟨fun _ => ⟨g0, 0, rfl, hb0, fin hb0.rep.1 (fun j => by rw [hc0]; simp)⟩, ?_⟩
    rintro ⟨i, c, h, _⟩; simp at h
  obtain ⟨a1, a2⟩ := ofSlice_release (n := n) (by omega) hn l 0 (by omega) hb0 (Nat.le_refl _) (fun j _ => hc0 j)
  refine ⟨?_, ?_⟩
  · intro h
    obtain ⟨g', m', b1, b2, b3⟩ := a1 (fun j hj c hc => absurd (h j c hc) (by omega))
    exact ⟨g', m', b1, b2, fin b2.rep.1 (fun j => by rw [b3 j, if_neg (by omega)]; rfl)⟩
  · rintro ⟨i, c, h, hi'⟩
    exact a2 ⟨i, c, by omega, h⟩

/-- A slice of five cells for a 2 × 2 board: the fifth stone is on the board, but no point shows it. -/
theorem C88_release_example : ∃ g m, Goban.ofSlice false [some .black, none, none, some .white, some .black] = .ok g ∧
    AnyBoard false (2, 2) m g ∧ g.numberOfStones = (2, 1) := by
  obtain ⟨g, m, h1, h2, h3⟩ := (C88_release (n := 2) (l := [some .black, none, none, some .white, some .black]) (by decide) (by decide)
    (by decide)).1 (fun i c h => by
      have : i < 5 := (List.getElem?_eq_some_iff.1 h).1
      omega)
  refine ⟨g, m, h1, h2, ?_⟩
  obtain ⟨v, hv, _, hc⟩ := C98_cells h2
  rw [hc]
  have := hv.1.symm.trans h3.1
  cases this
  decide +kernel

end Model
