import Verif.Props.DeadStones
import Verif.Proofs.Total
/-!
# Every query returns: C65; regions from a point of any colour: C19
-/

namespace Model
open Spec (OnBoard Adj Linked SameOn Pos)

variable {dbg : Bool} {n : Dim} {m : Nat}

/-! ## C19 -/

/-- **C19**, for a point whose colour need not be the one the board shows there: the search ends and returns the point itself and
the points of its colour that are joined, through points of that colour, to a neighbour of it; each once. -/
theorem C19_group_any_colour {g : Goban} (h : Board dbg n m g) {s : Point} (hp : OnBoard n s.coord) :
    ∃ R, g.groupFromPoint dbg s = .ok R ∧ R.Nodup ∧ ∀ x, x ∈ R ↔ x = s ∨ g.getColor x.coord = .ok x.color ∧
      ∃ q, OnBoard n q ∧ Adj s.coord q ∧ g.getColor q = .ok s.color ∧ Linked n g.view q x.coord := by
  have hI := h.inv.1
  obtain ⟨R, e, hnd, hR⟩ := groupFromPoint_any (dbg := dbg) hI hp
  refine ⟨R, e, hnd, fun x => ?_⟩
  rw [hR]
  have hx : ∀ q, OnBoard n q → Linked n g.view q x.coord → OnBoard n x.coord := by
    intro q hq hl
    cases hl with
    | refl => exact hq
    | step _ _ h _ => exact h
  constructor
  · rintro (h1 | ⟨h1, q, h2, h3, h4, h5⟩)
    · exact Or.inl h1
    · refine Or.inr ⟨?_, q, h2, h3, by rw [hI.getColor_view h2, h4], h5⟩
      rw [hI.getColor_view (hx q h2 h5)]
      exact congrArg Except.ok (congrArg Point.color h1).symm
  · rintro (h1 | ⟨h1, q, h2, h3, h4, h5⟩)
    · exact Or.inl h1
    · rw [hI.getColor_view h2] at h4
      rw [hI.getColor_view (hx q h2 h5)] at h1
      refine Or.inr ⟨?_, q, h2, h3, Except.ok.inj h4, h5⟩
      cases x with
      | mk p c =>
        show ({ coord := p, color := c } : Point) = { coord := p, color := g.view p }
        rw [show g.view p = c from Except.ok.inj h1]

/-- The point (0, 0) holds a black stone; searched as a white one it gives itself and its two white neighbours; searched as an
empty one it gives itself only. -/
example : ∃ g, Board true 3 4 g ∧ (
    g.groupFromPoint true { coord := (0, 0), color := some .white } =
      .ok [{ coord := (0, 0), color := some .white }, { coord := (0, 1), color := some .white },
        { coord := (1, 0), color := some .white }] ∧
    g.groupFromPoint true { coord := (0, 0), color := none } = .ok [{ coord := (0, 0), color := none }] : Bool) = true :=
  mkBoard_exists (l := [.push 0 0 .black, .push 0 1 .white, .push 1 0 .white, .push 2 2 .white]) (by decide +kernel)

/-! ## C65 -/

/-- **C65**, questions about one point of a board. -/
theorem C65_board_point {g : Goban} (h : Board dbg n m g) {p : Coord} (hp : OnBoard n p) :
    Returns (g.getColor p) ∧ Returns (g.connectedPoints dbg p) ∧ Returns (g.connectedStones dbg p) ∧
    Returns (g.connectedGroupsIdx dbg (twoTo1dim g.size p)) ∧ Returns (g.connectedGroups dbg p) ∧
    Returns (g.getLiberties dbg p) ∧ Returns (g.hasLiberties dbg p) ∧
    ∀ c, Returns (g.groupFromPoint dbg { coord := p, color := c }) := by
  have hI := h.inv.1
  refine ⟨⟨_, hI.getColor_view hp⟩, ⟨_, connectedPoints_ok hI hp⟩, ⟨_, connectedStones_ok hI hp⟩, ?_, ?_,
    ⟨_, getLiberties_ok hI hp⟩, ?_, ?_⟩
  · obtain ⟨ks, e, _⟩ := connectedGroupsIdx_ok (dbg := dbg) hI.size hI.good hI.rep.blen (twoTo1_lt hI.good hp)
    exact ⟨ks, by rw [hI.size]; exact e⟩
  · obtain ⟨gs, e, _⟩ := connectedGroups_ok (dbg := dbg) hI hp
    exact ⟨gs, e⟩
  · obtain ⟨b, e, _⟩ := hasLiberties_ok (dbg := dbg) hI hp
    exact ⟨b, e⟩
  · intro c
    obtain ⟨R, e, _⟩ := groupFromPoint_any (dbg := dbg) (s := { coord := p, color := c }) hI hp
    exact ⟨R, e⟩

/-- **C65**, questions about a whole board. -/
theorem C65_board {g : Goban} (h : Board dbg n m g) {ord : List Point → List Point} (hord : ∀ l, (ord l).Perm l) :
    Returns g.toVec ∧ Returns g.getStones ∧ Returns g.getEmptyCoords ∧ Returns g.prettyString ∧
    Returns (g.territories dbg ord) ∧ Returns (g.calculateTerritories dbg ord) ∧
    (∀ l : List Point, (∀ s ∈ l, OnBoard n s.coord) → Returns (g.chainsFromStones dbg l)) ∧
    (∀ k, g.Live k → Returns (g.chainStonesIdx dbg k) ∧ Returns (g.iterStones dbg k)) ∧
    (∀ n' m' g', Board dbg n' m' g' → Returns (g.beq g')) := by
  have hI := h.inv.1
  obtain ⟨es, ee, _⟩ := getEmptyCoords_any hI
  obtain ⟨t, et⟩ := territories_any (dbg := dbg) hI hord
  refine ⟨⟨_, toVec_ok hI⟩, ⟨_, getStones_ok hI⟩, ⟨es, ee⟩, ⟨_, prettyString_ok hI⟩, ⟨t, et⟩, ?_, ?_, ?_, ?_⟩
  · unfold Goban.calculateTerritories
    rw [et]
    exact ⟨_, rfl⟩
  · intro l hl
    obtain ⟨gs, e, _⟩ := chainsFromStones_any (dbg := dbg) hI l [] hl (by simp)
    exact ⟨gs, e⟩
  · rintro k ⟨grp, hg⟩
    obtain ⟨l, hl⟩ := group_spec (dbg := dbg) hI (live_ch.1 hg)
    exact ⟨⟨l, hl.stones⟩, ⟨_, hl.iter⟩⟩
  · intro n' m' g' h'
    by_cases hn : n = n'
    · subst hn
      obtain ⟨r, e, _⟩ := beq_ok hI h'.inv.1
      exact ⟨r, e⟩
    · exact ⟨false, beq_size hI h'.inv.1 hn⟩

/-- **C65**, the exceptions, exactly. `matrix` returns unless the board has no columns; the lists by colour return unless the
number of points overflows a byte in a debug build. -/
theorem C65_board_iff {g : Goban} (h : Board dbg n m g) :
    (Returns g.matrix ↔ n.w ≠ 0) ∧
    (∀ c, Returns (g.getCoordsByColor dbg c) ↔ dbg = false ∨ n.area < 256) ∧
    (∀ c, Returns (g.getStonesByColor dbg c) ↔ dbg = false ∨ n.area < 256) := by
  have hI := h.inv.1
  have key : ∀ c, Returns (g.getCoordsByColor dbg c) ↔ dbg = false ∨ n.area < 256 := by
    intro c
    constructor
    · rintro ⟨l, e⟩
      cases dbg with
      | false => exact Or.inl rfl
      | true =>
        refine Or.inr (Classical.byContradiction fun hn => ?_)
        unfold Goban.getCoordsByColor at e
        rw [hI.size, mulU8_big (a := n.sz.1) (b := n.sz.2) hn] at e
        cases e
    · intro hd
      obtain ⟨l, e, _⟩ := coordsByColor_any hI hd c
      exact ⟨l, e⟩
  refine ⟨⟨?_, matrix_any hI⟩, key, fun c => Iff.trans ?_ (key c)⟩
  · rintro ⟨r, e⟩ hw
    unfold Goban.matrix assertM at e
    rw [hI.size, if_neg (by simp [Dim.sz, hw])] at e
    cases e
  · unfold Goban.getStonesByColor
    constructor
    · rintro ⟨l, e⟩
      obtain ⟨l', e', _⟩ := bind_eq_ok e
      exact ⟨l', e'⟩
    · rintro ⟨l, e⟩
      rw [e]
      exact ⟨_, rfl⟩

/-- A board of four rows and two columns with a group of two stones: the questions are not trivial, and all return. -/
example : ∃ g, Board true ⟨4, 2⟩ 3 g ∧ (OnBoard (⟨4, 2⟩ : Dim) (1, 0) ∧
    g.getLiberties true (1, 0) = .ok [(2, 0), (0, 0)] ∧ g.chainStonesIdx true 0 =
      .ok [{ coord := (1, 0), color := .black }, { coord := (1, 1), color := .black }] ∧
    okAnd g.matrix (fun r => r.length == 180) ∧ (⟨4, 2⟩ : Dim).area < 256 : Bool) = true :=
  mkBoard_exists (l := [.push 1 0 .black, .push 1 1 .black, .push 3 1 .white]) (by decide +kernel)

/-- The exceptions occur: the empty board of size 0, and the board of size 16 in a debug build. -/
example : (∃ g, Board true 0 0 g ∧ (g.matrix = panic : Bool) = true) ∧
    ∃ g, Board true 16 1 g ∧ (g.getCoordsByColor true (some .black) = panic : Bool) = true :=
  ⟨mkBoard_exists (l := []) (by decide +kernel), mkBoard_exists (l := [.push 3 3 .black]) (by decide +kernel)⟩

variable {g : Game}

/-- **C65**, questions about one point of a game. Those that try the move on a copy of the board may panic if 65535 or more stones
have been put on the board. -/
theorem C65_game_point (h : Reach dbg n m g) {p : Coord} (hp : OnBoard n p) (c : Color) :
    Returns (g.willCapture dbg p) ∧ Returns (g.checkEye dbg { coord := p, color := c }) ∧
    Returns (g.checkKo dbg { coord := p, color := c }) ∧ Returns (g.checkSuicide dbg { coord := p, color := c }) ∧
    (∀ r, Safe (65535 ≤ m) (g.checkPointBy dbg p r) (fun _ => True)) ∧
    Safe (65535 ≤ m) (g.checkPoint dbg p) (fun _ => True) ∧
    (g.goban.getColor p = .ok none → Safe (65535 ≤ m) (g.checkSuperKo dbg { coord := p, color := c }) (fun _ => True)) := by
  have hI := h.inv
  have hh : ∀ b ∈ g.history, Inv n b := fun b hb => by
    obtain ⟨_, _, h'⟩ := h.spec.history b hb
    exact h'.inv.1
  have hf : g.Full → 65535 ≤ m := h.full
  obtain ⟨be, ee, _⟩ := checkEye_ok (dbg := dbg) (c := c) hI hp
  exact ⟨willCapture_any hI hp, ⟨be, ee⟩, checkKo_any hI hp, checkSuicide_any hI hp,
    fun r => (checkPointBy_any hI hh hp r).weaken hf, (checkPointBy_any hI hh hp _).weaken hf,
    fun he => (checkSuperKo_any hI hh hp he).weaken hf⟩

/-- **C65**, questions about a whole game. -/
theorem C65_game (h : Reach dbg n m g) {ord : List Point → List Point} (hord : ∀ l, (ord l).Perm l) :
    Returns g.pseudoLegals ∧ (∀ r, Safe (65535 ≤ m) (g.legalsBy dbg r) (fun _ => True)) ∧
    Safe (65535 ≤ m) (g.legals dbg) (fun _ => True) ∧ Safe (65535 ≤ m) (g.legalsMoves dbg) (fun _ => True) ∧
    (∀ r, Returns (g.calculateScoreBy dbg ord r)) ∧ Returns (g.calculateScore dbg ord) ∧ Returns (g.getOutcome dbg ord) ∧
    Returns (g.floatingStones dbg) ∧ (∀ m' b, Board dbg n m' b → Returns (g.deadChains dbg b)) ∧
    (Returns (g.pseudoLegalsVec dbg) ↔ dbg = false ∨ n.area < 256) := by
  have hI := h.inv
  have hh : ∀ b ∈ g.history, Inv n b := fun b hb => by
    obtain ⟨_, _, h'⟩ := h.spec.history b hb
    exact h'.inv.1
  have hf : g.Full → 65535 ≤ m := h.full
  obtain ⟨es, ee, _⟩ := getEmptyCoords_any hI
  obtain ⟨fl, ef, hfl⟩ := floatingStones_any (dbg := dbg) hI
  refine ⟨⟨es, ee⟩, fun r => (legalsBy_any hI hh r).weaken hf, (legalsBy_any hI hh _).weaken hf, (legalsMoves_any hI hh).weaken hf,
    fun r => calculateScoreBy_any hI hord r, calculateScoreBy_any hI hord _, getOutcome_any hI hord, ⟨fl, ef⟩, ?_, ?_⟩
  · intro m' b hb
    unfold Game.deadChains
    rw [ef, ok_bind]
    clear ef
    suffices key : ∀ (l acc : List Nat), (∀ k ∈ l, g.goban.Live k) → Returns (l.foldlM (fun acc k => do
        let ss ← g.goban.chainStonesIdx dbg k
        if ← Game.stonesGone b ss then .ok (if acc.contains k then acc else acc ++ [k]) else .ok acc) acc : M (List Nat)) from
      key fl [] hfl
    intro l
    induction l with
    | nil => intro acc _; exact ⟨acc, rfl⟩
    | cons k l ih =>
      intro acc hl
      obtain ⟨grp, hg⟩ := hl k (by simp)
      obtain ⟨ss, hs⟩ := group_spec (dbg := dbg) hI (live_ch.1 hg)
      obtain ⟨r, er, _⟩ := stonesGone_ok hb.inv.1 ss
        (fun s hs' => ((hs.mem s.coord).1 (List.mem_map_of_mem hs')).1)
      rw [List.foldlM_cons, hs.stones, ok_bind, er, ok_bind]
      cases r
      · exact ih _ (fun k hk => hl k (by simp [hk]))
      · exact ih _ (fun k hk => hl k (by simp [hk]))
  · constructor
    · rintro ⟨l, e⟩
      cases dbg with
      | false => exact Or.inl rfl
      | true =>
        refine Or.inr (Classical.byContradiction fun hn => ?_)
        rw [pseudoLegalsVec_ok hI, mulU8_big hn] at e
        cases e
    · intro hd
      exact ⟨_, C18_pseudo_legals_vec h hd.symm⟩

/-- A game in which a group is in atari, a ko has just been taken and the checks give both answers. -/
example : ∃ g, Legal true 4 9 g ∧ (g.koPoint = some (1, 1) ∧ g.checkKo true { coord := (1, 1), color := .white } = .ok true ∧
    g.willCapture true (1, 1) = .ok true ∧ g.willCapture true (3, 3) = .ok false ∧
    okAnd (g.calculateScore true id) (fun _ => true) : Bool) = true :=
  mkGame_exists (rule := JAPANESE) (l := exKo) (by decide) (by decide +kernel)

end Model
