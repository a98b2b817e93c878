import Verif.Props.Ko
/-!
# Turn order, legal moves, eyes, end of the game, misuse: C16, C17, C18, C31, C38, C39, C40, C50
-/

namespace Model
open Spec (OnBoard Adj Linked HasLiberty NoDead place SameOn Pos Suicide State)

variable {dbg : Bool} {n : Dim} {m : Nat} {g : Game}

/-! ## C16 -/

/-- **C16**, on any game: a play hands over the turn and resets the pass count. -/
theorem C16_play {x y : Nat} {g' : Game} (e : g.play dbg (.play x y) = .ok g') : g'.turn = g.turn.opp ∧ g'.passes = 0 := by
  rw [play_eq] at e
  obtain ⟨l, _, e⟩ := bind_eq_ok e
  obtain ⟨s, _, e⟩ := bind_eq_ok e
  cases e
  exact ⟨rfl, rfl⟩

/-- **C16**, on any game: a pass hands over the turn, counts, and changes neither the board nor the prisoners nor the history
nor the recorded outcome; it is possible iff fewer than two passes are pending. -/
theorem C16_pass : (g.passes < 2 → ∃ g', g.play dbg .pass = .ok g' ∧ g'.turn = g.turn.opp ∧ g'.passes = g.passes + 1 ∧
      g'.goban = g.goban ∧ g'.prisoners = g.prisoners ∧ g'.history = g.history ∧ g'.outcome = g.outcome) ∧
    (2 ≤ g.passes → g.play dbg .pass = panic) := by
  unfold Game.play
  constructor
  · intro h
    rw [decide_eq_true h]
    exact ⟨_, rfl, rfl, rfl, rfl, rfl, rfl, rfl⟩
  · intro h
    rw [decide_eq_false (by omega)]
    rfl

/-- **C16**, on any game: a resignation records the outcome and changes nothing else; in particular not the turn. -/
theorem C16_resign (c : Color) : g.play dbg (.resign c) = .ok { g with outcome := some (.winnerByResign c) } := rfl

/-- **C16**: through `try_play` the pass count never exceeds two. -/
theorem C16_passes_le_two (h : Legal dbg n m g) : g.passes ≤ 2 := by
  obtain ⟨o, s, m', _, hps, hs⟩ := h.sim
  rw [hs.passes]; exact hps

/-- **C16**, on any game: two accepted passes in a row end the game. -/
theorem C16_two_passes_end {g1 g2 : Game} (e1 : g.tryPlay dbg .pass = .ok (none, g1)) (e2 : g1.tryPlay dbg .pass = .ok (none, g2)) :
    g2.isOver = true := by
  have e1 := C13_accepted_is_play e1
  have e2 := C13_accepted_is_play e2
  unfold Game.play at e1 e2
  obtain ⟨_, _, e1⟩ := bind_eq_ok e1
  obtain ⟨_, _, e2⟩ := bind_eq_ok e2
  cases e1
  cases e2
  unfold Game.isOver
  split
  · rfl
  · exact decide_eq_true (by show 2 ≤ g.passes + 1 + 1; omega)

/-- **C16**, on any game: while two passes are pending every `try_play` is refused with `GamePaused` and changes nothing,
however many are tried. -/
theorem C16_paused (h : g.passes = 2) : ∀ (ms : List Move),
    g.run dbg (ms.map GOp.try_) = .ok (ms.map (fun _ => some .gamePaused), g)
  | [] => rfl
  | mv :: ms => by
    rw [List.map_cons, List.map_cons]
    unfold Game.run
    rw [show g.call dbg (.try_ mv) = .ok (some .gamePaused, g) from C13_paused h mv, ok_bind]
    dsimp only
    rw [C16_paused h ms, ok_bind]

/-- **C16**, on any game: `resume` sets the pass count to zero and changes nothing else, so a pass is accepted again. -/
theorem C16_resume : g.resume = { g with passes := 0 } ∧ ∃ g', g.resume.tryPlay dbg .pass = .ok (none, g') :=
  ⟨rfl, _, rfl⟩

example : ∃ g, Legal true 2 2 g ∧ (g.passes = 2 ∧ g.isOver : Bool) = true :=
  mkGame_exists (rule := CHINESE) (l := [.try_ .pass, .try_ .pass]) (by decide) (by decide +kernel)

/-! ## C17 -/

theorem filterMap_ite {α} (P : α → Prop) [DecidablePred P] : ∀ (l : List α),
    (l.map (fun a => if P a then some a else none)).filterMap id = l.filter (fun a => P a)
  | [] => rfl
  | a :: l => by
    rw [List.map_cons, List.filter_cons]
    by_cases h : P a
    · rw [if_pos h, if_pos (decide_eq_true h), List.filterMap_cons]
      dsimp only [id]
      rw [← filterMap_ite P l]
    · rw [if_neg h, if_neg (by simpa using h), List.filterMap_cons]
      dsimp only [id]
      exact filterMap_ite P l

theorem mapM_safe {α β} {full : Prop} {f : α → M β} {h : α → β} : ∀ {l : List α}, (∀ a ∈ l, Safe full (f a) (fun b => b = h a)) →
    Safe full (l.mapM f) (fun r => r = l.map h)
  | [], _ => Safe.ok rfl
  | a :: l, hl => by
    rw [List.mapM_cons]
    apply Safe.bind (hl a (by simp))
    intro b hb
    apply Safe.bind (mapM_safe (l := l) (fun a ha => hl a (by simp [ha])))
    intro bs hbs
    exact Safe.ok (by rw [hb, hbs, List.map_cons])

/-- `try_play` accepts the point. -/
def Game.Accepts (dbg : Bool) (g : Game) (p : Coord) : Prop := ∃ g', g.tryPlay dbg (.play p.1 p.2) = .ok (none, g')

theorem checkSuicide_total {c : Color} (h : Inv n g.goban) {p : Coord} (hp : OnBoard n p) :
    ∃ b, g.checkSuicide dbg { coord := p, color := c } = .ok b := by
  obtain ⟨b1, e1, _⟩ := hasLiberties_ok (dbg := dbg) h hp
  obtain ⟨gs, e2, _⟩ := connectedGroups_ok (dbg := dbg) h hp
  unfold Game.checkSuicide
  rw [e1, ok_bind]
  cases b1 with
  | true => exact ⟨_, rfl⟩
  | false => rw [if_neg (by simp), e2, ok_bind]; exact ⟨_, rfl⟩

/-- On every reachable game no check of an on-board point panics, except that the super-ko check may when the group table is
full. -/
theorem Reach.checkPointBy_total (h : Reach dbg n m g) {p : Coord} (hp : OnBoard n p) (r : IllegalRules) :
    Safe g.Full (g.checkPointBy dbg p r) (fun _ => True) := by
  have hI := h.inv
  cases hv : g.goban.view p with
  | some d =>
    unfold Game.checkPointBy
    dsimp only
    rw [hI.getColor_view hp, ok_bind, hv]
    exact Safe.ok trivial
  | none =>
    have e0 : g.goban.getColor p = .ok none := by rw [hI.getColor_view hp, hv]
    obtain ⟨gs, e2, _⟩ := connectedGroups_ok (dbg := dbg) hI hp
    have hcap : ∃ b, g.willCapture dbg p = .ok b := by
      unfold Game.willCapture
      rw [e2, ok_bind]
      exact ⟨_, rfl⟩
    obtain ⟨bs, es⟩ := checkSuicide_total (dbg := dbg) (c := g.turn) hI hp
    obtain ⟨bc, ec⟩ := hcap
    obtain ⟨bk, ek, _⟩ := checkKo_ok (dbg := dbg) (c := g.turn) hI hp hv
    obtain ⟨be, ee, _⟩ := checkEye_ok (dbg := dbg) (c := g.turn) hI hp
    rw [checkPointBy_eq e0 es ek ee]
    split
    · exact Safe.ok trivial
    split
    · exact Safe.ok trivial
    split
    · exact Safe.ok trivial
    split
    · refine Safe.bind (P := fun _ => True) ?_ (fun _ _ => Safe.ok trivial)
      unfold Game.checkSuperKo
      split
      · exact Safe.ok trivial
      · rw [ec, ok_bind]
        cases bc with
        | false => exact Safe.ok trivial
        | true =>
          rw [if_neg (by simp), playForVerification_eq]
          apply Safe.bind (P := fun b => Inv n b)
          · apply Safe.bind (move_total (dbg := dbg) (suicide := g.rule.flagIllegal.suicide) (c := g.turn) hI hp hv)
            intro c hc
            exact Safe.ok hc.inv
          · intro v hvi
            obtain ⟨r, er, _⟩ := historyContains_ok hvi g.history (fun b hb => by
              obtain ⟨m', _, hb'⟩ := h.spec.history b hb
              exact hb'.inv.1)
            rw [er, ek, ok_bind]
            cases bk <;> exact Safe.ok trivial
    · exact Safe.ok trivial

/-- A check that finds nothing was made of an empty point. -/
theorem checkPointBy_empty {p : Coord} {r : IllegalRules} (e : g.checkPointBy dbg p r = .ok none) : g.goban.getColor p = .ok none := by
  unfold Game.checkPointBy at e
  obtain ⟨c, e1, e⟩ := bind_eq_ok e
  cases c with
  | none => exact e1
  | some c => cases e

/-- Unless `legals_by` panics, each check it makes returned. -/
theorem legalsBy_reach {n : Nat} (h : Reach dbg n m g) (r : IllegalRules) : Safe (65535 ≤ m) (g.legalsBy dbg r) (fun l =>
    l = (Spec.points n).filter (fun p => g.goban.getColor p = .ok none ∧ g.checkPointBy dbg p r = .ok none)) := by
  unfold Game.legalsBy Game.pseudoLegals
  rw [emptyCoords_ok h.inv, ok_bind]
  have hmap : Safe (65535 ≤ m) (((Spec.points n).filter (fun p => (g.goban.view p).isNone)).mapM (fun c => do
      let e ← g.checkPointBy dbg c r; .ok (if e.isNone then some c else none)))
      (fun res => res = ((Spec.points n).filter (fun p => (g.goban.view p).isNone)).map
        (fun c => if g.checkPointBy dbg c r = .ok none then some c else none)) := by
    apply mapM_safe
    intro p hp
    rw [List.mem_filter, mem_points, Option.isNone_iff_eq_none] at hp
    rcases (h.checkPointBy_total (dbg := dbg) hp.1 r).weaken h.full with ⟨e, he, _⟩ | ⟨e, hfull⟩
    · rw [he, ok_bind]
      refine Safe.ok ?_
      cases e <;> simp
    · exact Or.inr ⟨by rw [e]; rfl, hfull⟩
  apply Safe.bind hmap
  intro res hres
  refine Safe.ok ?_
  rw [hres, filterMap_ite, List.filter_filter]
  apply filter_congr'
  intro p hp
  rw [Bool.eq_iff_iff, Bool.and_eq_true, decide_eq_true_eq, decide_eq_true_eq, getColor_none h.inv (mem_points.1 hp),
    Option.isNone_iff_eq_none, and_comm]

theorem legalsBy_spec {n : Nat} (h : Legal dbg n m g) (r : IllegalRules) : Safe (65535 ≤ m) (g.legalsBy dbg r) (fun l =>
    l = (Spec.points n).filter (fun p => g.goban.getColor p = .ok none ∧ g.checkPointBy dbg p r = .ok none)) := by
  obtain ⟨m', hm', hr⟩ := h.reach
  exact (legalsBy_reach hr r).weaken (fun h => by omega)

/-- **C17**, `legals_by(f)`, on every reachable game: in row-major order and without repetition, the empty points whose check
under `f` finds nothing. -/
theorem C17_legals_by {n : Nat} (h : Reach dbg n m g) (r : IllegalRules) : Safe (65535 ≤ m) (g.legalsBy dbg r) (fun l =>
    l = (Spec.points n).filter (fun p => g.goban.getColor p = .ok none ∧ g.checkPointBy dbg p r = .ok none) ∧ l.Nodup) :=
  (legalsBy_reach h r).mono (fun l hl => ⟨hl, by rw [hl]; exact (points_nodup n).filter _⟩)

theorem Legal.legalsBy {n : Nat} (h : Legal dbg n m g) (r : IllegalRules) : Safe (65535 ≤ m) (g.legalsBy dbg r) (fun l =>
    l = (Spec.points n).filter (fun p => g.goban.getColor p = .ok none ∧ g.checkPointBy dbg p r = .ok none) ∧ l.Nodup) :=
  (legalsBy_spec h r).mono (fun l hl => ⟨hl, by rw [hl]; exact (points_nodup n).filter _⟩)

theorem filter_sublist_of {α} {P Q : α → Bool} (h : ∀ a, P a = true → Q a = true) : ∀ (l : List α), (l.filter P).Sublist (l.filter Q)
  | [] => List.Sublist.slnil
  | a :: l => by
    rw [List.filter_cons, List.filter_cons]
    by_cases hp : P a = true
    · rw [if_pos hp, if_pos (h a hp)]; exact (filter_sublist_of h l).cons_cons a
    · rw [if_neg hp]
      split
      · exact (filter_sublist_of h l).cons a
      · exact filter_sublist_of h l

/-- `try_play` at an on-board point of a reachable game: pause, occupation, the checks, then `play`. -/
theorem Reach.tryPlay_play (h : Reach dbg n m g) {x y : Nat} (hp : OnBoard n (x, y)) :
    g.tryPlay dbg (.play x y) = if g.passes = 2 then .ok (some .gamePaused, g)
      else if g.goban.view (x, y) ≠ none then .ok (some .pointNotEmpty, g)
      else (do
        let e ← g.checkPointBy dbg (x, y) g.rule.flagIllegal
        match e with
        | some e => .ok (some e, g)
        | none => do
          let g' ← g.play dbg (.play x y)
          .ok (none, g')) := by
  unfold Game.tryPlay
  split
  · rfl
  · dsimp only
    rw [h.inv.getColor_view hp, ok_bind]
    rfl

open Classical in
/-- **C17**. In every reachable game that is not paused, in the life of which fewer than 65535 stones have been put, `legals()`
does not panic and lists in row-major order and without repetition exactly the on-board points that `try_play` accepts. -/
theorem C17_legals {n : Nat} (h : Reach dbg n m g) (hps : g.passes ≠ 2) (hm : m < 65535) : ∃ l, g.legals dbg = .ok l ∧
    l = (Spec.points n).filter (fun p => g.Accepts dbg p) ∧ l.Nodup := by
  obtain ⟨l, e, hl, hnd⟩ := (C17_legals_by h g.rule.flagIllegal).total (by omega)
  refine ⟨l, e, ?_, hnd⟩
  rw [hl]
  apply filter_congr'
  rintro ⟨x, y⟩ hp
  have hp := mem_points.1 hp
  rw [Bool.eq_iff_iff, decide_eq_true_eq, decide_eq_true_eq]
  unfold Game.Accepts
  rw [h.tryPlay_play hp, if_neg hps]
  constructor
  · rintro ⟨h1, h2⟩
    rw [if_neg (by simpa using (getColor_none h.inv hp).1 h1), h2, ok_bind]
    dsimp only
    obtain ⟨g', e', _⟩ := (h.play_spec (dbg := dbg) hp h1).total (by omega)
    exact ⟨g', by rw [e']; rfl⟩
  · rintro ⟨g', h2⟩
    by_cases h1 : g.goban.view (x, y) ≠ none
    · rw [if_pos h1] at h2; cases h2
    · rw [if_neg h1] at h2
      refine ⟨(getColor_none h.inv hp).2 (by simpa using h1), ?_⟩
      obtain ⟨e, e1, h2⟩ := bind_eq_ok h2
      cases e with
      | none => exact e1
      | some e => cases h2

open Classical in
theorem Legal.legals {n : Nat} (h : Legal dbg n m g) (hps : g.passes ≠ 2) (hm : m < 65535) : ∃ l, g.legals dbg = .ok l ∧
    l = (Spec.points n).filter (fun p => g.Accepts dbg p) ∧ l.Nodup := by
  obtain ⟨m', hm', hr⟩ := h.reach
  exact C17_legals hr hps (by omega)

/-- **C17**, on any game: a point that passes the check under some flags passes it under fewer. -/
theorem C17_check_mono {p : Coord} {r r' : IllegalRules} (h1 : r.ko = true → r'.ko = true) (h2 : r.superko = true → r'.superko = true)
    (h3 : r.suicide = true → r'.suicide = true) (h4 : r.fillEye = true → r'.fillEye = true)
    (e : g.checkPointBy dbg p r' = .ok none) : g.checkPointBy dbg p r = .ok none := by
  have weak : ∀ {a b : Bool} {x : M Bool}, (a = true → b = true) → (if b then x else pure false) = .ok false →
      (if a then x else pure false) = .ok false := by
    intro a b x hab hb
    cases a with
    | false => rfl
    | true => rw [hab rfl] at hb; exact hb
  unfold Game.checkPointBy at e ⊢
  dsimp only at e ⊢
  obtain ⟨col, ec, e⟩ := bind_eq_ok e
  rw [ec, ok_bind]
  cases col with
  | some c => cases e
  | none =>
    simp only [Option.isSome_none, Bool.false_eq_true, if_false] at e ⊢
    obtain ⟨b1, e1, e⟩ := bind_eq_ok e
    cases b1 with
    | true => cases e
    | false =>
    obtain ⟨b2, e2, e⟩ := bind_eq_ok e
    cases b2 with
    | true => cases e
    | false =>
    obtain ⟨b3, e3, e⟩ := bind_eq_ok e
    cases b3 with
    | true => cases e
    | false =>
    obtain ⟨b4, e4, e⟩ := bind_eq_ok e
    cases b4 with
    | true => cases e
    | false =>
    rw [weak h3 e1, ok_bind]
    simp only [Bool.false_eq_true, if_false]
    rw [weak h1 e2, ok_bind]
    simp only [Bool.false_eq_true, if_false]
    rw [weak h4 e3, ok_bind]
    simp only [Bool.false_eq_true, if_false]
    rw [weak h2 e4, ok_bind]
    rfl

/-- A game with legal, suicide, ko and occupied points. -/
example : ∃ g, Legal true 4 9 g ∧ (g.passes ≠ 2 ∧ g.legals true = .ok [(0, 3), (2, 0), (2, 3), (3, 0), (3, 1), (3, 2)] : Bool) = true :=
  mkGame_exists (rule := JAPANESE) (l := exKo) (by decide) (by decide +kernel)

/-! ## C18 -/

/-- **C18**. `pseudo_legals` lists the empty points, each once, row by row, on every reachable game. -/
theorem C18_pseudo_legals {n : Nat} (h : Reach dbg n m g) :
    g.pseudoLegals = .ok ((Spec.points n).filter (fun p => g.goban.getColor p = .ok none)) := by
  unfold Game.pseudoLegals
  rw [emptyCoords_ok h.inv]
  congr 1
  apply filter_congr'
  intro p hp
  rw [Bool.eq_iff_iff, decide_eq_true_eq, getColor_none h.inv (mem_points.1 hp), Option.isNone_iff_eq_none]

/-- The full statement of **C18** for `pseudo_legals_vec`, for one game. Refuted by `C18_false`. -/
def C18Full (dbg : Bool) (g : Game) : Prop := g.pseudoLegalsVec dbg = g.pseudoLegals

/-- **C18**. `pseudo_legals_vec` lists the empty points, each once, row by row, unless the number of points overflows a byte in
a debug build. -/
theorem C18_pseudo_legals_vec (h : Reach dbg n m g) (hn : n.area < 256 ∨ dbg = false) :
    g.pseudoLegalsVec dbg = .ok ((Spec.points n).filter (fun p => g.goban.getColor p = .ok none)) := by
  unfold Game.pseudoLegalsVec
  dsimp only
  rw [h.inv.size]
  have hm : ∃ v, mulU8 dbg n.sz.1 n.sz.2 = .ok v := by
    unfold mulU8
    split
    · exact ⟨_, rfl⟩
    · rename_i hc
      rcases hn with hn | hn
      · exact absurd hn hc
      · rw [if_neg (by rw [hn]; decide)]; exact ⟨_, rfl⟩
  obtain ⟨v, hv⟩ := hm
  rw [hv, ok_bind, allCoords_eq, mapM_ok (h := fun p => if g.goban.getColor p = .ok none then some p else none), ok_bind, filterMap_ite]
  intro p hp
  have hp := mem_points.1 hp
  have hlt := twoTo1_lt h.inv.good hp
  have hl := h.inv.lt361 hlt
  unfold Goban.boardAt
  rw [h.inv.getElem?_board hl, ok_bind]
  cases hb : g.goban.bd (twoTo1dim n.sz p) with
  | none =>
    have : g.goban.getColor p = .ok none := by
      unfold Goban.getColor Goban.getColorIdx Goban.boardAt
      rw [h.inv.size, h.inv.getElem?_board hl, hb]; rfl
    rw [if_pos this]
  | some k =>
    have : g.goban.getColor p ≠ .ok none := by
      unfold Goban.getColor Goban.getColorIdx Goban.boardAt
      rw [h.inv.size, h.inv.getElem?_board hl, hb]
      intro h'
      dsimp only at h'
      rw [ok_bind] at h'
      dsimp only at h'
      obtain ⟨_, _, h'⟩ := bind_eq_ok h'
      cases h'
    rw [if_neg this]

/-- **C18** for `pseudo_legals_vec`, in release builds and on boards of size at most 15. Missing: debug builds from size 16. -/
theorem C18_pseudo_legals_vec_partial {n : Nat} (h : Reach dbg n m g) (hn : n ≤ 15 ∨ dbg = false) : C18Full dbg g := by
  unfold C18Full
  rw [C18_pseudo_legals h, C18_pseudo_legals_vec h]
  rcases hn with hn | hn
  · exact .inl (Nat.lt_of_le_of_lt (Nat.mul_le_mul hn hn) (by decide))
  · exact .inr hn

example : ∃ g, Legal true 4 9 g ∧ (g.pseudoLegalsVec true = .ok [(0, 0), (0, 3), (1, 1), (2, 0), (2, 3), (3, 0), (3, 1), (3, 2)] : Bool) = true :=
  mkGame_exists (rule := JAPANESE) (l := exKo) (by decide) (by decide +kernel)

/-- **C18** is false as stated: on a 16 × 16 board (or larger) a debug build of `pseudo_legals_vec` panics, already on the empty
board. -/
theorem C18_false : ∃ g, Reach true 16 0 g ∧ ¬ C18Full true g := by
  have key : okAnd (Game.new (.custom 16 16) CHINESE) (fun g => okAnd g.pseudoLegals (fun _ => true) ∧
      g.pseudoLegalsVec true = panic) = true := by decide +kernel
  obtain ⟨g, e, h⟩ := okAnd_iff.1 key
  simp only [decide_eq_true_eq] at h
  refine ⟨g, .fresh (new_fresh (by decide) e), fun hf => ?_⟩
  obtain ⟨l, e1, _⟩ := okAnd_iff.1 h.1
  unfold C18Full at hf
  rw [h.2, e1] at hf
  cases hf

/-! ## C31 -/

/-- Diagonal neighbours. -/
def Diag (p q : Coord) : Prop := (p.1 + 1 = q.1 ∨ q.1 + 1 = p.1) ∧ (p.2 + 1 = q.2 ∨ q.2 + 1 = p.2)

/-- **C31**, soundness: `check_eye` never panics on an on-board point and is true only on empty points all of whose on-board
neighbours hold the colour asked for. -/
theorem C31_sound (h : Reach dbg n m g) {p : Coord} (hp : OnBoard n p) (c : Color) :
    ∃ b, g.checkEye dbg { coord := p, color := c } = .ok b ∧ (b = true → g.goban.getColor p = .ok none ∧
      ∀ q, Adj p q → OnBoard n q → g.goban.getColor q = .ok (some c)) := by
  obtain ⟨b, e, hb⟩ := checkEye_ok (dbg := dbg) (c := c) h.inv hp
  refine ⟨b, e, fun h1 => ?_⟩
  have h2 := hb.1 h1
  refine ⟨(getColor_none h.inv hp).2 h2.1, fun q hq hqb => ?_⟩
  rw [h.inv.getColor_view hqb, h2.2.1 q hq hqb]

theorem diag_of_mem {p q : Coord} (hq : q ∈ Spec.corners n p) : OnBoard n q ∧ Diag p q := by
  unfold Spec.corners at hq
  rw [List.mem_filter, decide_eq_true_eq, List.mem_filterMap] at hq
  obtain ⟨⟨o, ho, e⟩, hb⟩ := hq
  dsimp only [id] at e
  subst e
  refine ⟨hb, ?_⟩
  unfold Spec.diagonals at ho
  unfold Diag
  simp only [List.mem_cons, List.not_mem_nil, or_false, Option.some.injEq] at ho
  rcases ho with h | h | h | h
  · subst h; simp
  · split at h
    · cases h; simp; omega
    · cases h
  · split at h
    · cases h; simp; omega
    · cases h
  · split at h
    · cases h; simp; omega
    · cases h

theorem corners_length (n : Dim) (p : Coord) : (Spec.corners n p).length ≤ 4 := by
  unfold Spec.corners
  refine Nat.le_trans (List.length_filter_le _ _) ?_
  refine Nat.le_trans (List.length_filterMap_le _ _) ?_
  exact Nat.le_refl 4

/-- **C31**, completeness: an empty point with all on-board neighbours and all on-board diagonal points of colour `c` is an
eye of `c`. -/
theorem C31_complete (h : Reach dbg n m g) {p : Coord} (hp : OnBoard n p) (c : Color) (he : g.goban.getColor p = .ok none)
    (ha : ∀ q, Adj p q → OnBoard n q → g.goban.getColor q = .ok (some c))
    (hd : ∀ q, Diag p q → OnBoard n q → g.goban.getColor q = .ok (some c)) :
    g.checkEye dbg { coord := p, color := c } = .ok true := by
  obtain ⟨b, e, hb⟩ := checkEye_ok (dbg := dbg) (c := c) h.inv hp
  have hv : ∀ {q}, OnBoard n q → g.goban.getColor q = .ok (some c) → g.goban.view q = some c := by
    intro q _ h1
    unfold Goban.view; rw [h1]
  have : b = true := by
    rw [hb]
    refine ⟨(getColor_none h.inv hp).1 he, fun q hq hqb => hv hqb (ha q hq hqb), Or.inl ?_⟩
    unfold Spec.safeCorners
    rw [List.filter_eq_self.2 (fun q hq => ?_)]
    · have := corners_length n p; omega
    · have := diag_of_mem hq
      exact decide_eq_true (hv this.1 (hd q this.2 this.1))
  rw [e, this]

/-- **C31**: the answer is the eye shape described by `Spec.Eye`. -/
theorem C31_exact (h : Reach dbg n m g) {p : Coord} (hp : OnBoard n p) (c : Color) :
    ∃ b, g.checkEye dbg { coord := p, color := c } = .ok b ∧ (b = true ↔ Spec.Eye n g.goban.view c p) :=
  checkEye_ok h.inv hp

/-- **C31**: the eye rule never forbids a capturing play. -/
theorem C31_capture_not_eye (h : Legal dbg n m g) {p : Coord} (hp : OnBoard n p)
    (hc : Spec.Captures n g.goban.view p g.turn) : g.checkEye dbg { coord := p, color := g.turn } = .ok false := by
  obtain ⟨b, e, hb⟩ := checkEye_ok (dbg := dbg) (c := g.turn) h.reach.choose_spec.2.inv hp
  cases b with
  | false => exact e
  | true =>
    exfalso
    obtain ⟨he, hsur, _⟩ := hb.1 rfl
    obtain ⟨q, hq, hv, hr⟩ := hc
    obtain ⟨s, ha, hs, hvs, _⟩ := captured_adj (C10_no_dead_groups h) hq he hv hr
    rw [hsur s ha hs] at hvs
    exact Color.opp_ne _ (Option.some.inj hvs).symm

/-- An eye and a point that is not one. -/
example : ∃ g, Legal true 3 5 g ∧ (g.checkEye true { coord := (0, 0), color := .black } = .ok true ∧
    g.checkEye true { coord := (0, 0), color := .white } = .ok false ∧
    g.checkEye true { coord := (0, 2), color := .black } = .ok false : Bool) = true :=
  mkGame_exists (rule := JAPANESE) (l := [.try_ (.play 0 1), .try_ (.play 2 2), .try_ (.play 1 0), .try_ .pass, .try_ (.play 1 1)])
    (by decide) (by decide +kernel)

/-! ## C39 -/

/-- **C39**. On every reachable game whose groups all have liberties, `will_capture` never panics on an empty on-board point and is true iff the play removes an opposing stone. -/
theorem C39_will_capture (hr : Reach dbg n m g) (hd : NoDead n g.goban.view) {x y : Nat} (hp : OnBoard n (x, y)) (he : g.goban.getColor (x, y) = .ok none) :
    ∃ b, g.willCapture dbg (x, y) = .ok b ∧ ∀ g', g.play dbg (.play x y) = .ok g' →
      (b = true ↔ ∃ q, OnBoard n q ∧ g.goban.getColor q = .ok (some g.turn.opp) ∧ g'.goban.getColor q = .ok none) := by
  have he' := (getColor_none hr.inv hp).1 he
  obtain ⟨b, e, hb⟩ := willCapture_ok (dbg := dbg) hr.inv hd hp he'
  refine ⟨b, e, fun g' e' => ?_⟩
  have hr' := Reach.play hr hp he e'
  have hv := (C09_play hr hd hp he).of_ok e'
  rw [hb]
  constructor
  · rintro ⟨q, hq, h1, h2⟩
    have hcap : Spec.Captures n g.goban.view (x, y) g.turn := ⟨q, hq, h1, h2⟩
    refine ⟨q, hq, by rw [hr.inv.getColor_view hq, h1], ?_⟩
    rw [getColor_none hr'.inv hq, hv q hq, play_capture _ hd hp he' hcap q hq, h2]
  · rintro ⟨q, hq, h1, h2⟩
    rw [hr.inv.getColor_view hq, Except.ok.injEq] at h1
    rw [getColor_none hr'.inv hq, hv q hq] at h2
    refine ⟨q, hq, h1, ?_⟩
    have hqp : q ≠ (x, y) := by rintro rfl; rw [he'] at h1; cases h1
    have h3 : after n g.goban.view (x, y) g.turn q = none ∨ after n g.goban.view (x, y) g.turn q = some g.turn.opp := by
      unfold after Spec.removeDead
      split
      · exact Or.inl rfl
      · right; rw [place_ne hqp, h1]
    rcases h3 with h3 | h3
    · exact h3
    · exfalso
      unfold Spec.play at h2
      split at h2
      · rcases removeDead_eq_none h2 with h4 | h4
        · unfold after at h3; rw [h3] at h4; cases h4
        · unfold after at h3; rw [h3] at h4; exact Color.opp_ne _ (Option.some.inj h4)
      · unfold after at h3; rw [h3] at h2; cases h2

/-- Both answers occur. -/
example : ∃ g, Legal true 3 2 g ∧ (g.willCapture true (1, 0) = .ok true ∧ g.willCapture true (2, 0) = .ok false : Bool) = true :=
  mkGame_exists (rule := CHINESE) (l := [.try_ (.play 0 1), .try_ (.play 0 0)]) (by decide) (by decide +kernel)

/-! ## C38 -/

/-- Any call leaves a recorded outcome recorded, and leaves it as it is unless it is a resignation. -/
theorem call_outcome {c : GOp} {e : Option PlayError} {g' : Game} (h : g.call dbg c = .ok (e, g')) :
    (g.outcome.isSome → g'.outcome.isSome) ∧ ((∀ k, c ≠ .try_ (.resign k)) → g'.outcome = g.outcome) := by
  cases c with
  | resume => cases h; exact ⟨id, fun _ => rfl⟩
  | setKomi k => cases h; exact ⟨id, fun _ => rfl⟩
  | try_ mv =>
    cases e with
    | some e => rw [C13_refused_unchanged h]; exact ⟨id, fun _ => rfl⟩
    | none =>
      have h := C13_accepted_is_play h
      cases mv with
      | pass =>
        unfold Game.play at h
        obtain ⟨_, _, h⟩ := bind_eq_ok h
        cases h; exact ⟨id, fun _ => rfl⟩
      | resign k => cases h; exact ⟨fun _ => rfl, fun h => absurd rfl (h k)⟩
      | play x y =>
        rw [play_eq] at h
        obtain ⟨l, _, h⟩ := bind_eq_ok h
        obtain ⟨s, _, h⟩ := bind_eq_ok h
        cases h; exact ⟨id, fun _ => rfl⟩

theorem run_outcome : ∀ {cs : List GOp} {g : Game} {es : List (Option PlayError)} {g' : Game}, g.run dbg cs = .ok (es, g') →
    (g.outcome.isSome → g'.outcome.isSome) ∧ ((∀ c ∈ cs, ∀ k, c ≠ .try_ (.resign k)) → g'.outcome = g.outcome)
  | [], g, es, g', h => by cases h; exact ⟨id, fun _ => rfl⟩
  | c :: cs, g, es, g', h => by
    unfold Game.run at h
    obtain ⟨⟨e1, g1⟩, h1, h⟩ := bind_eq_ok h
    obtain ⟨⟨es2, g2⟩, h2, h⟩ := bind_eq_ok h
    cases h
    have a := call_outcome h1
    have b := run_outcome h2
    exact ⟨fun h => b.1 (a.1 h), fun h => (b.2 (fun c hc => h c (by simp [hc]))).trans (a.2 (h c (by simp)))⟩

/-- The full statement of **C38** for a game that is over: the recorded outcome stays and no stone can be placed.
Refuted by `C38_false_stone` and `C38_false_outcome`. -/
def C38Full (dbg : Bool) (g : Game) : Prop := g.isOver = true → ∀ cs es g', g.run dbg cs = .ok (es, g') →
  (g.outcome.isSome → g'.outcome = g.outcome) ∧ ((∀ c ∈ cs, c ≠ .resume) → g'.goban = g.goban)

/-- **C38**, on any game: after a resignation the game is over, and stays over whatever calls follow. -/
theorem C38_stays_over_partial {k : Color} {g1 : Game} (e1 : g.play dbg (.resign k) = .ok g1) {cs : List GOp}
    {es : List (Option PlayError)} {g' : Game} (e : g1.run dbg cs = .ok (es, g')) : g1.isOver = true ∧ g'.isOver = true := by
  cases e1
  have := (run_outcome e).1 rfl
  refine ⟨rfl, ?_⟩
  unfold Game.isOver
  rw [if_pos this]

/-- **C38**, on any game: `outcome()` is the resignation until somebody resigns again. Missing: it does not survive a second
resignation. -/
theorem C38_outcome_partial {ord : List Point → List Point} {k : Color} {g1 : Game} (e1 : g.play dbg (.resign k) = .ok g1) {cs : List GOp}
    {es : List (Option PlayError)} {g' : Game} (e : g1.run dbg cs = .ok (es, g')) (hn : ∀ c ∈ cs, ∀ k, c ≠ .try_ (.resign k)) :
    g'.getOutcome dbg ord = .ok (some (.winnerByResign k)) := by
  cases e1
  have h := (run_outcome e).2 hn
  unfold Game.getOutcome
  have ho : g'.isOver = true := by unfold Game.isOver; rw [h]; rfl
  rw [ho, h]
  rfl

/-- **C38**, on any game: after two passes nothing changes until `resume` (except the komi, which `set_komi` sets). -/
theorem C38_paused_partial : ∀ {cs : List GOp} {g : Game} {es : List (Option PlayError)} {g' : Game}, g.passes = 2 →
    (∀ c ∈ cs, c ≠ .resume) → g.run dbg cs = .ok (es, g') → g' = { g with rule := g'.rule } ∧ g'.passes = 2
  | [], g, es, g', hp, _, h => by cases h; exact ⟨rfl, hp⟩
  | c :: cs, g, es, g', hp, hn, h => by
    unfold Game.run at h
    obtain ⟨⟨e1, g1⟩, h1, h⟩ := bind_eq_ok h
    obtain ⟨⟨es2, g2⟩, h2, h⟩ := bind_eq_ok h
    have hn' : ∀ c ∈ cs, c ≠ .resume := fun c hc => hn c (by simp [hc])
    cases h
    cases c with
    | resume => exact absurd rfl (hn _ (by simp))
    | setKomi k =>
      cases h1
      have := C38_paused_partial (g := g.setKomi k) hp hn' h2
      exact ⟨this.1, this.2⟩
    | try_ mv =>
      have h3 := C13_paused (dbg := dbg) hp mv
      rw [show g.call dbg (.try_ mv) = g.tryPlay dbg mv from rfl, h3] at h1
      cases h1
      exact C38_paused_partial hp hn' h2

/-- **C38** is false as stated: after a resignation `try_play` still places stones. -/
theorem C38_false_stone (dbg : Bool) : ∃ g, Legal dbg 3 1 g ∧ ¬ C38Full dbg g := by
  have key : okAnd (mkGame dbg 3 CHINESE [.try_ (.resign .white)]) (fun g => g.isOver ∧ okAnd (g.run dbg [.try_ (.play 1 1)])
      (fun r => r.2.goban ≠ g.goban)) = true := by
    cases dbg <;> decide +kernel
  obtain ⟨g, hl, hg⟩ := mkGame_exists (by decide) key
  simp only [decide_eq_true_eq] at hg
  obtain ⟨⟨es, g'⟩, e, h⟩ := okAnd_iff.1 hg.2
  simp only [decide_eq_true_eq] at h
  refine ⟨g, hl, fun hf => h ((hf hg.1 _ _ _ e).2 ?_)⟩
  simp

/-- **C38** is false as stated: a second resignation replaces the first result. -/
theorem C38_false_outcome (dbg : Bool) : ∃ g, Legal dbg 3 1 g ∧ g.outcome = some (.winnerByResign .white) ∧ ¬ C38Full dbg g := by
  have key : okAnd (mkGame dbg 3 CHINESE [.try_ (.resign .white)]) (fun g => g.isOver ∧ g.outcome = some (.winnerByResign .white) ∧
      okAnd (g.run dbg [.try_ (.resign .black)]) (fun r => r.2.outcome ≠ g.outcome)) = true := by
    cases dbg <;> decide +kernel
  obtain ⟨g, hl, hg⟩ := mkGame_exists (by decide) key
  simp only [decide_eq_true_eq] at hg
  obtain ⟨⟨es, g'⟩, e, h⟩ := okAnd_iff.1 hg.2.2
  simp only [decide_eq_true_eq] at h
  exact ⟨g, hl, hg.2.1, fun hf => h ((hf hg.1 _ _ _ e).1 (by rw [hg.2.1]; rfl))⟩

/-! ## C40 -/

/-- The full statement of **C40**, for one game: no call with an off-board coordinate places a stone.
Refuted by `C40_false_alias` and `C40_false_hidden`. -/
def C40Full (dbg : Bool) (n : Dim) (g : Game) : Prop := ∀ x y, ¬ OnBoard n (x, y) → ∀ g', g.tryPlay dbg (.play x y) ≠ .ok (none, g')

theorem setNext_lt {b b' : Goban} {i v : Nat} (e : b.setNext i v = .ok b') :
    i < b.nextStone.length ∧ b'.nextStone.length = b.nextStone.length := by
  unfold Goban.setNext at e
  split at e
  · cases e; exact ⟨by assumption, by simp⟩
  · cases e

theorem createChain_lt {b : Goban} {i : Nat} {c : Color} {l : List Nat} {r : Nat × Goban} (e : b.createChain dbg i c l = .ok r) :
    i < b.nextStone.length := by
  unfold Goban.createChain at e
  obtain ⟨_, _, e⟩ := bind_eq_ok e
  obtain ⟨b1, e1, _⟩ := bind_eq_ok e
  exact (setNext_lt e1).1

theorem addStoneToChain_lt {b : Goban} {k i : Nat} {r : Goban} (e : b.addStoneToChain dbg k i = .ok r) : i < b.nextStone.length := by
  unfold Goban.addStoneToChain at e
  obtain ⟨grp, _, e⟩ := bind_eq_ok e
  dsimp only at e
  split at e
  · obtain ⟨b1, e2, _⟩ := bind_eq_ok e
    exact (setNext_lt e2).1
  · obtain ⟨b1, e2, e⟩ := bind_eq_ok e
    obtain ⟨b2, e3, _⟩ := bind_eq_ok e
    have := (setNext_lt e3).1
    rwa [(setNext_lt e2).2] at this

theorem attach_lt {b : Goban} {i : Nat} {c : Color} {same libs : List Nat} {r : Nat × Goban}
    (e : b.attach dbg i c same libs = .ok r) : i < b.nextStone.length := by
  unfold Goban.attach at e
  split at e
  · exact createChain_lt e
  · obtain ⟨_, _, e⟩ := bind_eq_ok e
    obtain ⟨_, _, e⟩ := bind_eq_ok e
    obtain ⟨_, _, e⟩ := bind_eq_ok e
    obtain ⟨_, e1, _⟩ := bind_eq_ok e
    have := addStoneToChain_lt e1
    exact this
  · obtain ⟨⟨_, _⟩, e1, _⟩ := bind_eq_ok e
    exact createChain_lt e1

theorem takeLiberty_next {i : Nat} : ∀ {l : List Nat} {st r : Goban × List Nat}, l.foldlM (Goban.takeLiberty dbg i) st = .ok r →
    r.1.nextStone = st.1.nextStone
  | [], st, r, e => by cases e; rfl
  | k :: l, st, r, e => by
    rw [List.foldlM_cons] at e
    obtain ⟨st', e1, e⟩ := bind_eq_ok e
    rw [takeLiberty_next e]
    unfold Goban.takeLiberty at e1
    obtain ⟨_, _, e1⟩ := bind_eq_ok e1
    obtain ⟨_, _, e1⟩ := bind_eq_ok e1
    cases e1
    rfl

theorem pushWthFeedback_lt {b : Goban} {p : Coord} {c : Color} {f : Goban.Feedback} (e : b.pushWthFeedback dbg p c = .ok f) :
    twoTo1dim b.size p < b.nextStone.length := by
  unfold Goban.pushWthFeedback at e
  obtain ⟨nbs, _, e⟩ := bind_eq_ok e
  obtain ⟨a, _, e⟩ := bind_eq_ok e
  obtain ⟨⟨b1, dead⟩, e1, e⟩ := bind_eq_ok e
  obtain ⟨⟨k, b2⟩, e2, _⟩ := bind_eq_ok e
  have := attach_lt e2
  rwa [show b1.nextStone = b.nextStone from takeLiberty_next e1] at this

/-- **C40** for the coordinates whose index is outside the table of 361 cells: neither `play` nor `try_play` ever returns.
Missing: the other off-board coordinates, for which the property is false. -/
theorem C40_off_table_partial (h : Reach dbg n m g) {x y : Nat} (hxy : 361 ≤ x * n.h + y) : (∀ g', g.play dbg (.play x y) ≠ .ok g') ∧
    (g.passes ≠ 2 → g.tryPlay dbg (.play x y) = panic) := by
  have hi : twoTo1dim g.goban.size (x, y) = x * n.h + y := by rw [h.inv.size]; rfl
  constructor
  · intro g' e
    rw [play_eq] at e
    obtain ⟨l, _, e⟩ := bind_eq_ok e
    obtain ⟨s, e1, e⟩ := bind_eq_ok e
    unfold Goban.move at e1
    obtain ⟨f, e2, _⟩ := bind_eq_ok e1
    have := pushWthFeedback_lt e2
    rw [hi, h.inv.rep.nlen] at this
    omega
  · intro hps
    unfold Game.tryPlay
    rw [if_neg hps]
    have : g.goban.getColor (x, y) = panic := by
      unfold Goban.getColor Goban.getColorIdx Goban.boardAt
      rw [hi, List.getElem?_eq_none (by rw [h.inv.rep.blen]; exact hxy)]
      rfl
    dsimp only
    rw [this]
    rfl

example : ∃ g, Legal true 19 0 g ∧ (g.passes ≠ 2 ∧ 361 ≤ 19 * 19 + 0 : Bool) = true :=
  mkGame_exists (rule := CHINESE) (l := []) (by decide) (by decide +kernel)

/-- **C40** is false as stated: on a 9 × 9 board `try_play` accepts (3, 9), and the stone appears on (4, 0). -/
theorem C40_false_alias (dbg : Bool) : ∃ g g', Legal dbg 9 0 g ∧ ¬ OnBoard 9 (3, 9) ∧ g.tryPlay dbg (.play 3 9) = .ok (none, g') ∧
    g.goban.getColor (4, 0) = .ok none ∧ g'.goban.getColor (4, 0) = .ok (some .black) := by
  have key : okAnd (mkGame dbg 9 CHINESE []) (fun g => okAnd (g.tryPlay dbg (.play 3 9))
      (fun r => r.1 = none ∧ g.goban.getColor (4, 0) = .ok none ∧ r.2.goban.getColor (4, 0) = .ok (some .black))) = true := by
    cases dbg <;> decide +kernel
  obtain ⟨g, hl, hg⟩ := mkGame_exists (by decide) key
  obtain ⟨⟨e, g'⟩, e1, h⟩ := okAnd_iff.1 hg
  simp only [decide_eq_true_eq] at h
  obtain ⟨h1, h2, h3⟩ := h
  subst h1
  exact ⟨g, g', hl, by decide, e1, h2, h3⟩

/-- **C40** is false as stated: on a 9 × 9 board `try_play` accepts (9, 0), and the stone is counted but appears nowhere on the
board. -/
theorem C40_false_hidden (dbg : Bool) : ∃ g g', Legal dbg 9 0 g ∧ ¬ OnBoard 9 (9, 0) ∧ g.tryPlay dbg (.play 9 0) = .ok (none, g') ∧
    g'.goban.numberOfStones = (1, 0) ∧ ∀ p, OnBoard 9 p → g'.goban.getColor p = .ok none := by
  have key : okAnd (mkGame dbg 9 CHINESE []) (fun g => okAnd (g.tryPlay dbg (.play 9 0))
      (fun r => r.1 = none ∧ r.2.goban.numberOfStones = (1, 0) ∧ ∀ p ∈ Spec.points 9, r.2.goban.getColor p = .ok none)) = true := by
    cases dbg <;> decide +kernel
  obtain ⟨g, hl, hg⟩ := mkGame_exists (by decide) key
  obtain ⟨⟨e, g'⟩, e1, h⟩ := okAnd_iff.1 hg
  simp only [decide_eq_true_eq] at h
  obtain ⟨h1, h2, h3⟩ := h
  subst h1
  exact ⟨g, g', hl, by decide, e1, h2, fun p hp => h3 p (mem_points.2 hp)⟩

/-- The refutation in the form of `C40Full`. -/
theorem C40_false (dbg : Bool) : ∃ g, Legal dbg 9 0 g ∧ ¬ C40Full dbg 9 g := by
  obtain ⟨g, g', hl, hn, e, _⟩ := C40_false_alias dbg
  exact ⟨g, hl, fun h => h 3 9 hn g' e⟩

/-! ## C50 -/

/-- The full statement of **C50**, for one game. Refuted by `C50_false`. -/
def C50Full (dbg : Bool) (n : Dim) (g : Game) : Prop := ∀ x y g', OnBoard n (x, y) → g.play dbg (.play x y) = .ok g' →
  g'.goban.numberOfStones = (Spec.count n g'.goban.view (some .black), Spec.count n g'.goban.view (some .white))

/-- **C50**, what holds: on any game `try_play` on an occupied point is refused and changes nothing; and `play` on an empty point
keeps the count right. Missing: `play` on an occupied point, for which the property is false. -/
theorem C50_try_play_partial {x y : Nat} {c : Color} (hc : g.goban.getColor (x, y) = .ok (some c)) :
    ∃ e, g.tryPlay dbg (.play x y) = .ok (some e, g) := by
  unfold Game.tryPlay
  split
  · exact ⟨_, rfl⟩
  · dsimp only
    rw [hc, ok_bind]
    exact ⟨_, rfl⟩

theorem C50_play_empty_partial (h : Reach dbg n m g) {x y : Nat} (hp : OnBoard n (x, y)) (he : g.goban.getColor (x, y) = .ok none)
    {g' : Game} (e : g.play dbg (.play x y) = .ok g') :
    g'.goban.numberOfStones = (Spec.count n g'.goban.view (some .black), Spec.count n g'.goban.view (some .white)) :=
  numberOfStones_ok (Reach.play h hp he e).inv

/-- **C50** is false as stated: playing twice on the same point counts two stones, one of each colour, where one is shown. -/
theorem C50_false : ∃ g, Legal false 3 1 g ∧ ¬ C50Full false 3 g := by
  have key : okAnd (mkGame false 3 CHINESE [.try_ (.play 1 1)]) (fun g => okAnd (g.play false (.play 1 1))
      (fun g' => g'.goban.numberOfStones ≠ (Spec.count 3 g'.goban.view (some .black), Spec.count 3 g'.goban.view (some .white)))) = true := by
    decide +kernel
  obtain ⟨g, hl, hg⟩ := mkGame_exists (by decide) key
  obtain ⟨g', e, h⟩ := okAnd_iff.1 hg
  simp only [decide_eq_true_eq] at h
  exact ⟨g, hl, fun hf => h (hf 1 1 g' (by decide) e)⟩

end Model
