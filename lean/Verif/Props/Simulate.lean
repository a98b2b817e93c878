import Verif.Props.Finite
import Verif.Props.Queries
import Verif.Props.Counting
import Verif.Props.SuperKo
import Verif.Props.RectMoves
/-!
# The simulation behind dead_stones: C67
-/

namespace Model
open Spec (OnBoard)

variable {dbg : Bool} {n : Dim} {m : Nat} {g : Game}

/-- What is asked of the tree search: from a non-empty list it returns one of the moves. -/
def FromList (best : Nat → Game → List Move → Move) : Prop := ∀ k g l, l ≠ [] → best k g l ∈ l

/-- `legals_moves` of a game that is not over: passing if nothing else is listed, otherwise accepted points that are no own eyes. -/
theorem legalsMoves_mem (h : Legal dbg n m g) (ho : g.isOver = false) {l : List Move} (e : g.legalsMoves dbg = .ok l)
    {mv : Move} (hmv : mv ∈ l) : (mv = .pass ∧ l = [.pass]) ∨ ∃ x y, mv = .play x y ∧ OnBoard n (x, y) ∧
      g.goban.getColor (x, y) = .ok none ∧ g.checkPoint dbg (x, y) = .ok none ∧
      g.checkEye dbg { coord := (x, y), color := g.turn } = .ok false := by
  unfold Game.legalsMoves at e
  obtain ⟨ps, e1, e⟩ := bind_eq_ok e
  obtain ⟨m0, _, hr⟩ := h.reach
  have hl := (C91_legals_by hr { g.rule.flagIllegal with fillEye := true }).of_ok e1
  dsimp only at e
  by_cases h0 : (ps.map (fun c => Move.play c.1 c.2)).isEmpty = true
  · rw [if_pos h0, ho] at e
    cases e
    exact Or.inl ⟨by simpa using hmv, rfl⟩
  · rw [if_neg h0] at e
    cases e
    obtain ⟨⟨x, y⟩, hp, rfl⟩ := List.mem_map.1 hmv
    rw [hl, List.mem_filter, mem_scan hr.inv.good, decide_eq_true_eq] at hp
    obtain ⟨⟨hO, _⟩, he, hc⟩ := hp
    refine Or.inr ⟨x, y, rfl, hO, he, C17_check_mono (r' := { g.rule.flagIllegal with fillEye := true }) id id id (fun _ => rfl) hc, ?_⟩
    obtain ⟨_, s, m', hm', hps2, hs⟩ := h.sim
    obtain ⟨b, e2, _⟩ := checkEye_ok (dbg := dbg) (c := g.turn) hs.inv hO
    cases b with
    | false => exact e2
    | true =>
      exfalso
      unfold Game.checkPointBy at hc
      dsimp only at hc
      rw [he, ok_bind, e2] at hc
      simp only [Option.isSome_none, Bool.false_eq_true, if_false, if_true, ok_bind] at hc
      obtain ⟨b1, _, hc⟩ := bind_eq_ok hc
      cases b1 with
      | true => cases hc
      | false =>
        obtain ⟨b2, _, hc⟩ := bind_eq_ok hc
        cases b2 <;> cases hc

/-! ## C67 -/

/-- **C67**, one round: the move the search chose is one `try_play` accepts in that game, it does not fill an eye of its player, and
playing it leads to the game `try_play` leads to. A panic needs a full group table. (The last two parts are for `C67_ends_partial`.) -/
theorem C67_round {best : Nat → Game → List Move → Move} (hbest : FromList best) (h : Legal dbg n m g) (ho : g.isOver = false)
    (k : Nat) : Safe g.Full (g.legalsMoves dbg) (fun l => Safe g.Full (g.play dbg (best k g l)) (fun g' =>
      g.tryPlay dbg (best k g l) = .ok (none, g') ∧ Legal dbg n (m + 1) g' ∧
      (∀ x y, best k g l = .play x y → OnBoard n (x, y) ∧ g.checkEye dbg { coord := (x, y), color := g.turn } = .ok false) ∧
      g'.passes ≤ 2 ∧ 2 * g.goban.age n + g.passes + 1 ≤ 2 * g'.goban.age n + g'.passes)) := by
  obtain ⟨m', hm', hr⟩ := h.reach
  rcases legalsMoves_any (dbg := dbg) hr.inv (fun b hb => by
    obtain ⟨_, _, h'⟩ := hr.spec.history b hb
    exact h'.inv.1) with ⟨l, e, _⟩ | ⟨e, hf⟩
  · rw [e]
    have hne : l ≠ [] := by
      rintro rfl
      rw [C46_empty_over e] at ho
      cases ho
    have hmv := legalsMoves_mem h ho e (hbest k g l hne)
    refine .ok ((accepted_safe h ho ?_).mono (fun g' h => ⟨h.1, h.2.1, fun x y hxy => ?_, h.2.2⟩))
    · rcases hmv with ⟨h1, _⟩ | ⟨x, y, h1, h2, h3, h4, _⟩
      · exact Or.inl h1
      · exact Or.inr ⟨x, y, h1, h2, h3, h4⟩
    · rcases hmv with ⟨h1, _⟩ | ⟨x', y', h1, h2, _, _, h5⟩
      · rw [h1] at hxy; cases hxy
      · rw [h1] at hxy; cases hxy
        exact ⟨h2, h5⟩
  · rw [e]
    exact Or.inr ⟨rfl, hf⟩

/-- The full statement of **C67** for the loop: it never panics. (With `C67_ends_partial`: it ends with a game that is over.) Refuted
by `C67_false`. -/
def C67Full (dbg : Bool) (g : Game) : Prop := ∀ best : Nat → Game → List Move → Move, FromList best →
  ∀ fuel, g.simulate dbg best fuel ≠ panic

/-- **C67**, the loop: under every rule and whatever the search chooses, it stops within `2 · (131070 · (a + 1) + a) + 2` rounds, `a`
the number of points. It stops with a game that is over and that is reached from the given one by accepted moves, or with a panic in a game whose
group table is full. Missing: that it is never a panic. -/
theorem C67_ends_partial {best : Nat → Game → List Move → Move} (hbest : FromList best) (h : Legal dbg n m g) :
    (∃ g' k, g.simulate dbg best (2 * lifeOf n + 2) = .ok g' ∧ g'.isOver = true ∧ Accepted dbg n g k g' ∧ Legal dbg n (m + k) g') ∨
      (g.simulate dbg best (2 * lifeOf n + 2) = panic ∧ ∃ k g', Accepted dbg n g k g' ∧ g'.Full ∧ 65535 ≤ m + k) := by
  have key : ∀ (k j : Nat) (g1 : Game), Accepted dbg n g j g1 → Legal dbg n (m + j) g1 → g1.passes ≤ 2 →
      2 * lifeOf n + 2 ≤ k + (2 * g1.goban.age n + g1.passes) →
      (∃ g' j', g1.simulate dbg best k = .ok g' ∧ g'.isOver = true ∧ Accepted dbg n g j' g' ∧ Legal dbg n (m + j') g') ∨
      (g1.simulate dbg best k = panic ∧ ∃ k g', Accepted dbg n g k g' ∧ g'.Full ∧ 65535 ≤ m + k) := by
    intro k
    induction k with
    | zero =>
      intro j g1 ha h hp hk
      obtain ⟨m', _, hr⟩ := h.reach
      have h1 : g1.goban.age n ≤ lifeOf n := age_le hr.inv
      have ho : g1.isOver = true := by
        cases ho : g1.isOver with
        | true => rfl
        | false => have := not_over_passes ho; omega
      unfold Game.simulate
      rw [if_pos ho]
      exact Or.inl ⟨g1, j, rfl, ho, ha, h⟩
    | succ k ih =>
      intro j g1 ha h hp hk
      unfold Game.simulate
      cases ho : g1.isOver with
      | true => exact Or.inl ⟨g1, j, rfl, ho, ha, h⟩
      | false =>
        have full : g1.Full → 65535 ≤ m + j := fun hf => by
          obtain ⟨m', hm', hr⟩ := h.reach
          exact Nat.le_trans (hr.full hf) hm'
        rcases C67_round hbest h ho k with ⟨l, e, ⟨g2, e2, h1, h2, h3, h4, h5⟩ | ⟨e2, hf⟩⟩ | ⟨e, hf⟩
        · rw [e, ok_bind, e2]
          have hmv : (best k g1 l).OnBoard n := by
            cases hb : best k g1 l with
            | play x y => exact (h3 x y hb).1
            | pass => trivial
            | resign c => trivial
          exact ih (j + 1) g2 (.move ha hmv h1) h2 h4 (by omega)
        · rw [e, ok_bind, e2]; exact Or.inr ⟨rfl, j, g1, ha, hf, full hf⟩
        · rw [e]; exact Or.inr ⟨rfl, j, g1, ha, hf, full hf⟩
  obtain ⟨_, s, _, _, hp, hs⟩ := h.sim
  exact key _ 0 g .start h (by rw [hs.passes]; exact hp) (by omega)

/-- **C67**, the result: if the call returns, it returns, each once, the floating groups of which the final board no longer shows
some stone; it panics only if the loop does. -/
theorem C67_dead_stones {best : Nat → Game → List Move → Move} (hbest : FromList best) (h : Legal dbg n m g) :
    (g.simulate dbg best (2 * lifeOf n + 2) = panic ∧ g.deadStones dbg best (2 * lifeOf n + 2) = panic) ∨
    ∃ g' fl l, g.simulate dbg best (2 * lifeOf n + 2) = .ok g' ∧ g'.isOver = true ∧ g.floatingStones dbg = .ok fl ∧
      g.deadStones dbg best (2 * lifeOf n + 2) = .ok l ∧ l.Nodup ∧
      ∀ k, k ∈ l ↔ k ∈ fl ∧ ∃ ss s, g.goban.chainStonesIdx dbg k = .ok ss ∧ s ∈ ss ∧
        g'.goban.getColor s.coord ≠ .ok (some s.color) := by
  obtain ⟨m1, _, hr⟩ := h.reach
  unfold Game.deadStones
  rcases C67_ends_partial hbest h with ⟨g', k, e, ho, _, hl⟩ | ⟨e, _⟩
  · obtain ⟨m2, _, hr'⟩ := hl.reach
    obtain ⟨fl, l, h1, h2, h3, h4⟩ := C85_dead_stones hr hr'.spec.board
    refine Or.inr ⟨g', fl, l, e, ho, h1, ?_, h3, h4⟩
    rw [h1, ok_bind, e, ok_bind, h2]
  · obtain ⟨fl, e1, _⟩ := C91_floating_stones hr
    refine Or.inl ⟨e, ?_⟩
    rw [e1, ok_bind, e]
    rfl

theorem Accepted.run {k : Nat} {g' : Game} (h : Accepted dbg n g k g') : ∃ cs es, (∀ c ∈ cs, GOp.OnBoard n c) ∧ g.run dbg cs = .ok (es, g') := by
  induction h with
  | start => exact ⟨[], [], by simp, rfl⟩
  | @move k g1 g2 mv _ hmv e ih =>
    obtain ⟨cs, es, h1, h2⟩ := ih
    refine ⟨cs ++ [.try_ mv], es ++ [none], ?_, ?_⟩
    · intro c hc
      rcases List.mem_append.1 hc with hc | hc
      · exact h1 c hc
      · rw [List.mem_singleton.1 hc]; exact hmv
    · rw [run_append, h2, ok_bind]
      dsimp only
      rw [Game.run]
      show ((g1.tryPlay dbg mv) >>= _) >>= _ = _
      rw [e]
      rfl

theorem Legal.run {n : Dim} : ∀ (cs : List GOp) {m : Nat} {g g' : Game} {es : List (Option PlayError)}, Legal dbg n m g → (∀ c ∈ cs, c.OnBoard n) →
    g.run dbg cs = .ok (es, g') → ∃ m', Legal dbg n m' g'
  | [], m, g, g', es, h, _, e => by cases e; exact ⟨m, h⟩
  | c :: cs, m, g, g', es, h, hcs, e => by
    unfold Game.run at e
    obtain ⟨⟨x, g1⟩, e1, e⟩ := bind_eq_ok e
    obtain ⟨⟨xs, g2⟩, e2, e⟩ := bind_eq_ok e
    cases e
    have h1 : ∃ m', Legal dbg n m' g1 := by
      cases c with
      | try_ mv => exact ⟨_, .tryPlay h (show Move.OnBoard n mv from hcs (.try_ mv) (by simp)) e1⟩
      | resume => cases e1; exact ⟨_, .resume h⟩
      | setKomi k => cases e1; exact ⟨_, .setKomi h⟩
    obtain ⟨m1, h1⟩ := h1
    exact Legal.run cs h1 (fun c hc => hcs c (by simp [hc])) e2

/-- Accepted moves do not fill the group table, under a rule that forbids super-ko and suicide, in a game started on an empty board
of at most nine points. -/
theorem small_accepted {g0 : Game} {m0 : Nat} (hf : Fresh dbg n m0 g0) (hb : Bare n g0.goban.view) (hn : n.area ≤ 9)
    (hsu : g0.rule.flagIllegal.suicide = true) (hsk : g0.rule.flagIllegal.superko = true) (hm0 : m0 ≤ 6000) {cs : List GOp}
    (hcs : ∀ c ∈ cs, c.OnBoard n) {es : List (Option PlayError)} (e : g0.run dbg cs = .ok (es, g)) {k : Nat} {g' : Game}
    (ha : Accepted dbg n g k g') : ¬ g'.Full := by
  obtain ⟨ds, es', h1, h2⟩ := ha.run
  obtain ⟨r, e2, hnf⟩ := small_run (cs := cs ++ ds) hf hb hn hsu hsk hm0 (fun c hc => by
    rcases List.mem_append.1 hc with hc | hc
    · exact hcs c hc
    · exact h1 c hc)
  rw [run_append, e, ok_bind] at e2
  dsimp only at e2
  rw [h2] at e2
  cases e2
  exact hnf

/-- **C57**, under a rule that forbids super-ko and suicide (the Chinese rule is one), in a game started on an empty board of at most
nine points: every play-out ends with a game that is over. -/
theorem C57_small {sh : Nat → List Coord → List Coord} (hsh : ∀ k l, (sh k l).Perm l) {g0 : Game} {m0 : Nat} (hf : Fresh dbg n m0 g0)
    (hb : Bare n g0.goban.view) (hn : n.area ≤ 9) (hsu : g0.rule.flagIllegal.suicide = true)
    (hsk : g0.rule.flagIllegal.superko = true) (hm0 : m0 ≤ 6000) {cs : List GOp} (hcs : ∀ c ∈ cs, c.OnBoard n)
    {es : List (Option PlayError)} (e : g0.run dbg cs = .ok (es, g)) :
    ∃ g', g.playout dbg sh (2 * lifeOf n + 2) = .ok g' ∧ g'.isOver = true := by
  obtain ⟨m, hl⟩ := (Legal.fresh hf (fun p hp hne => absurd (hb p hp) hne)).run cs hcs e
  rcases C57_playout_partial hl hsh with ⟨g', k, e1, ho, _⟩ | ⟨_, k, g', ha, hfull, _⟩
  · exact ⟨g', e1, ho⟩
  · exact absurd hfull (small_accepted hf hb hn hsu hsk hm0 hcs e ha)

/-- **C67**, under a rule that forbids super-ko and suicide (the Chinese rule is one), in a game started on an empty board of at most
nine points: the loop always ends with a game that is over, and the call returns. -/
theorem C67_small {best : Nat → Game → List Move → Move} (hbest : FromList best) {g0 : Game} {m0 : Nat} (hf : Fresh dbg n m0 g0)
    (hb : Bare n g0.goban.view) (hn : n.area ≤ 9) (hsu : g0.rule.flagIllegal.suicide = true)
    (hsk : g0.rule.flagIllegal.superko = true) (hm0 : m0 ≤ 6000) {cs : List GOp} (hcs : ∀ c ∈ cs, c.OnBoard n)
    {es : List (Option PlayError)} (e : g0.run dbg cs = .ok (es, g)) :
    (∃ g', g.simulate dbg best (2 * lifeOf n + 2) = .ok g' ∧ g'.isOver = true) ∧
      ∃ l, g.deadStones dbg best (2 * lifeOf n + 2) = .ok l := by
  obtain ⟨m, hl⟩ := (Legal.fresh hf (fun p hp hne => absurd (hb p hp) hne)).run cs hcs e
  have key : ∃ g', g.simulate dbg best (2 * lifeOf n + 2) = .ok g' ∧ g'.isOver = true := by
    rcases C67_ends_partial hbest hl with ⟨g', k, e1, ho, _⟩ | ⟨_, k, g', ha, hfull, _⟩
    · exact ⟨g', e1, ho⟩
    · exact absurd hfull (small_accepted hf hb hn hsu hsk hm0 hcs e ha)
  refine ⟨key, ?_⟩
  rcases C67_dead_stones hbest hl with ⟨h1, _⟩ | ⟨_, _, l, _, _, _, h, _⟩
  · obtain ⟨g', e1, _⟩ := key
    rw [e1] at h1; cases h1
  · exact ⟨l, h⟩

/-- The hypotheses of the last two theorems on the 3 × 3 board under the Chinese rule, after a game with a capture; a play-out and a
simulation from there, with their results. -/
example : okAnd (do
    let g0 ← Game.new (.custom 3 3) CHINESE
    let (es, g) ← g0.run true [.try_ (.play 0 1), .try_ (.play 0 0), .try_ (.play 1 0), .try_ (.play 2 2)]
    let a ← g.playout true (fun _ l => l.reverse) 40
    let b ← g.simulate true (fun _ _ l => l.getLast?.getD .pass) 40
    .ok (g0, es, g, a, b)) (fun r => decide (Bare 3 r.1.goban.view) && r.1.rule.flagIllegal.suicide && r.1.rule.flagIllegal.superko &&
      r.2.1.all (·.isNone) && decide (r.2.2.1.prisoners = (1, 0)) && r.2.2.2.1.isOver && r.2.2.2.2.isOver &&
      decide (2 < r.2.2.2.1.goban.numberOfStones.1)) = true := by
  decide +kernel

/-- **C67**, finished games: asked of a game that is over, `dead_stones` names no group, whatever the position. -/
theorem C67_over (h : Reach dbg n m g) (ho : g.isOver = true) (best : Nat → Game → List Move → Move) (fuel : Nat) :
    g.deadStones dbg best fuel = .ok [] := by
  have hs : g.simulate dbg best fuel = .ok g := by
    cases fuel <;> (unfold Game.simulate; rw [ho]; rfl)
  obtain ⟨fl, l, h1, h2, _, h4⟩ := C85_dead_stones h h.spec.board
  unfold Game.deadStones
  rw [h1, ok_bind, hs, ok_bind, h2]
  have : ∀ k, k ∉ l := by
    intro k hk
    obtain ⟨hfl, ss, s, e1, hs1, hne⟩ := (h4 k).1 hk
    obtain ⟨fl', e2, _, hfl'⟩ := C91_floating_stones h
    rw [h1] at e2; cases e2
    obtain ⟨grp, hg⟩ := ((hfl' k).1 hfl).1
    obtain ⟨ss', hs2⟩ := group_spec (dbg := dbg) h.inv (live_ch.1 hg)
    rw [hs2.stones] at e1; cases e1
    obtain ⟨hO, hv, _⟩ := hs2.view h.inv (live_ch.1 hg) hs1
    exact hne (by rw [h.inv.getColor_view hO, hv, hs2.color s hs1])
  rw [List.eq_nil_iff_forall_not_mem.2 this]

/-- A finished game with a board to which the last theorem applies: three eyes of one group are counted, and no group is named. -/
example : okAnd (do
    let g0 ← Game.new (.custom 3 3) CHINESE
    let (es, g) ← g0.run true [.try_ (.play 0 1), .try_ .pass, .try_ (.play 1 0), .try_ .pass, .try_ (.play 1 1), .try_ .pass,
      .try_ (.play 1 2), .try_ .pass, .try_ (.play 2 1), .try_ .pass, .try_ .pass]
    let fl ← g.floatingStones true
    let l ← g.deadStones true (fun _ _ l => l.getLast?.getD .pass) 0
    .ok (es, g, fl, l)) (fun r => r.1.all (·.isNone) && r.2.1.isOver && decide (r.2.2.1 = [0]) && decide (r.2.2.2 = [])) = true := by
  decide +kernel

/-! ### A simulation that panics -/

/-- Without the super-ko check the play-out and the list of `legals_moves` agree on the points to play. -/
theorem checkPoint_fill (hk : g.rule.flagIllegal.superko = false) {p : Coord} {r : Option PlayError} {b : Bool}
    (e : g.checkPointBy dbg p { g.rule.flagIllegal with fillEye := true } = .ok r)
    (eb : g.checkEye dbg { coord := p, color := g.turn } = .ok b) :
    ∃ r', g.checkPoint dbg p = .ok r' ∧ (r = none ↔ r' = none ∧ b = false) := by
  unfold Game.checkPoint
  unfold Game.checkPointBy at e ⊢
  dsimp only at e ⊢
  rw [eb] at e ⊢
  obtain ⟨c, e1, e⟩ := bind_eq_ok e
  rw [e1, ok_bind]
  by_cases hc : c.isSome = true
  · rw [if_pos hc] at e ⊢
    cases e
    exact ⟨_, rfl, by simp⟩
  · rw [if_neg hc] at e ⊢
    obtain ⟨b1, e2, e⟩ := bind_eq_ok e
    rw [e2, ok_bind]
    cases b1 with
    | true => cases e; exact ⟨_, rfl, by simp⟩
    | false =>
      obtain ⟨b2, e3, e⟩ := bind_eq_ok e
      simp only [Bool.false_eq_true, if_false]
      rw [e3, ok_bind]
      cases b2 with
      | true => cases e; exact ⟨_, rfl, by simp⟩
      | false =>
        rw [hk] at e ⊢
        simp only [if_true, ok_bind, Bool.false_eq_true, if_false] at e ⊢
        cases b with
        | true =>
          cases e
          cases g.rule.flagIllegal.fillEye with
          | true => exact ⟨_, rfl, by simp⟩
          | false => exact ⟨none, rfl, by simp⟩
        | false =>
          cases e
          cases g.rule.flagIllegal.fillEye with
          | true => exact ⟨_, rfl, by simp⟩
          | false => exact ⟨none, rfl, by simp⟩

theorem fastPlayRandom_fill (h : Reach dbg n m g) (hk : g.rule.flagIllegal.superko = false) : ∀ (v : List Coord),
    (∀ p ∈ v, OnBoard n p ∧ ∃ r, g.checkPointBy dbg p { g.rule.flagIllegal with fillEye := true } = .ok r) →
    (∃ p ∈ v, g.checkPointBy dbg p { g.rule.flagIllegal with fillEye := true } = .ok none ∧
      g.fastPlayRandom dbg v = .ok (.play p.1 p.2)) ∨
    ((∀ p ∈ v, g.checkPointBy dbg p { g.rule.flagIllegal with fillEye := true } ≠ .ok none) ∧ g.fastPlayRandom dbg v = .ok .pass)
  | [], _ => Or.inr ⟨by simp, rfl⟩
  | c :: v, hv => by
    obtain ⟨hO, r, e⟩ := hv c (by simp)
    obtain ⟨b, eb, _⟩ := checkEye_ok (dbg := dbg) (c := g.turn) h.inv hO
    obtain ⟨r', e', hr⟩ := checkPoint_fill hk e eb
    have ih := fastPlayRandom_fill h hk v (fun p hp => hv p (by simp [hp]))
    have skip : r ≠ none → g.fastPlayRandom dbg (c :: v) = g.fastPlayRandom dbg v →
        (∃ p ∈ c :: v, g.checkPointBy dbg p { g.rule.flagIllegal with fillEye := true } = .ok none ∧
          g.fastPlayRandom dbg (c :: v) = .ok (.play p.1 p.2)) ∨
        ((∀ p ∈ c :: v, g.checkPointBy dbg p { g.rule.flagIllegal with fillEye := true } ≠ .ok none) ∧
          g.fastPlayRandom dbg (c :: v) = .ok .pass) := fun hne he => by
      rcases ih with ⟨p, h1, h2, h3⟩ | ⟨h1, h2⟩
      · exact Or.inl ⟨p, by simp [h1], h2, by rw [he, h3]⟩
      · refine Or.inr ⟨fun p hp => ?_, by rw [he, h2]⟩
        rcases List.mem_cons.1 hp with rfl | hp
        · rw [e]; exact fun h => hne (Except.ok.inj h)
        · exact h1 p hp
    have hf : g.fastPlayRandom dbg (c :: v) = if r'.isNone then (if b then g.fastPlayRandom dbg v else .ok (.play c.1 c.2))
        else g.fastPlayRandom dbg v := by
      rw [Game.fastPlayRandom, e', ok_bind, eb]
      rfl
    cases r' with
    | some x => exact skip (fun h => by simpa using hr.1 h) (by rw [hf]; rfl)
    | none =>
      cases b with
      | true => exact skip (fun h => by simpa using hr.1 h) (by rw [hf]; rfl)
      | false =>
        have : r = none := hr.2 ⟨rfl, rfl⟩
        subst this
        exact Or.inl ⟨c, by simp, e, by rw [hf]; rfl⟩

theorem mapM_ok_all {α β : Type} {f : α → M β} : ∀ {l : List α} {r : List β}, l.mapM f = .ok r → ∀ a ∈ l, ∃ b, f a = .ok b
  | [], _, _, a, ha => by simp at ha
  | x :: l, r, e, a, ha => by
    rw [List.mapM_cons] at e
    obtain ⟨b, e1, e⟩ := bind_eq_ok e
    obtain ⟨bs, e2, e⟩ := bind_eq_ok e
    rcases List.mem_cons.1 ha with rfl | ha
    · exact ⟨b, e1⟩
    · exact mapM_ok_all e2 a ha

/-- A round of a play-out is a round of the simulation, unless `legals_moves` panics. -/
theorem round_simulated {n : Nat} (h : Legal dbg n m g) (hk : g.rule.flagIllegal.superko = false) (ho : g.isOver = false) {ps v : List Coord}
    (e : g.pseudoLegals = .ok ps) (hv : v.Perm ps) : g.legalsMoves dbg = panic ∨
      ∃ l mv, g.legalsMoves dbg = .ok l ∧ mv ∈ l ∧ g.playoutRound dbg v = g.play dbg mv := by
  obtain ⟨m', hm', hr⟩ := h.reach
  rcases (C65_game hr (ord := id) (fun l => .refl l)).2.2.2.1 with ⟨l, el, _⟩ | ⟨el, _⟩
  swap
  · exact Or.inl el
  refine Or.inr ⟨l, ?_⟩
  have el' := el
  unfold Game.legalsMoves at el'
  obtain ⟨lp, e1, el'⟩ := bind_eq_ok el'
  have hlp := ((Legal.legalsBy h { g.rule.flagIllegal with fillEye := true }).of_ok e1).1
  have e0 := e
  rw [C18_pseudo_legals hr] at e0
  have hps : ∀ p, p ∈ v ↔ OnBoard n p ∧ g.goban.getColor p = .ok none := by
    intro p
    rw [hv.mem_iff, ← Except.ok.inj e0, List.mem_filter, mem_points, decide_eq_true_eq]
  have hall : ∀ p ∈ v, OnBoard n p ∧ ∃ r, g.checkPointBy dbg p { g.rule.flagIllegal with fillEye := true } = .ok r := by
    intro p hp
    refine ⟨((hps p).1 hp).1, ?_⟩
    unfold Game.legalsBy at e1
    rw [e, ok_bind] at e1
    obtain ⟨os, e2, _⟩ := bind_eq_ok e1
    obtain ⟨o, e3⟩ := mapM_ok_all e2 p (hv.mem_iff.1 hp)
    obtain ⟨r, e4, _⟩ := bind_eq_ok e3
    exact ⟨r, e4⟩
  unfold Game.playoutRound
  rcases fastPlayRandom_fill hr hk v hall with ⟨p, h1, h2, h3⟩ | ⟨h1, h2⟩
  · refine ⟨.play p.1 p.2, el, ?_, by rw [h3]; rfl⟩
    have hp : p ∈ lp := by
      rw [hlp, List.mem_filter, mem_points, decide_eq_true_eq]
      exact ⟨((hps p).1 h1).1, ((hps p).1 h1).2, h2⟩
    dsimp only at el'
    rw [if_neg (by cases lp with | nil => cases hp | cons a t => simp)] at el'
    cases el'
    exact List.mem_map.2 ⟨p, hp, rfl⟩
  · refine ⟨.pass, el, ?_, by rw [h2]; rfl⟩
    have : lp = [] := by
      refine List.eq_nil_iff_forall_not_mem.2 (fun p hp => ?_)
      rw [hlp, List.mem_filter, mem_points, decide_eq_true_eq] at hp
      exact h1 p ((hps p).2 ⟨hp.1, hp.2.1⟩) hp.2.2
    subst this
    rw [ho] at el'
    cases el'
    simp

theorem simulate_congr {best best' : Nat → Game → List Move → Move} : ∀ (k : Nat) (g : Game), (∀ j < k, best j = best' j) →
    g.simulate dbg best k = g.simulate dbg best' k
  | 0, _, _ => rfl
  | k + 1, g, h => by
    unfold Game.simulate
    rw [h k (Nat.lt_succ_self _)]
    have ih := fun g' => simulate_congr k g' (fun j hj => h j (Nat.lt_succ_of_lt hj))
    simp only [ih]

/-- Rounds of a play-out, as rounds of the simulation. -/
theorem Rounds.simulate {n : Nat} (h0 : Legal dbg n m g) (hk : g.rule.flagIllegal.superko = false) {k : Nat} {g' : Game} (h : Rounds dbg g k g') :
    Legal dbg n (m + k) g' ∧ g'.rule = g.rule ∧ ∀ (j : Nat) (best : Nat → Game → List Move → Move), FromList best →
      ∃ best', FromList best' ∧ (g.simulate dbg best' (k + j) = g'.simulate dbg best j ∨ g.simulate dbg best' (k + j) = panic) := by
  induction h with
  | start => exact ⟨h0, rfl, fun j best hb => ⟨best, hb, Or.inl (by rw [Nat.zero_add])⟩⟩
  | @round k g1 g2 ps v _ ho e hv e2 ih =>
    obtain ⟨hl, hr, ih⟩ := ih
    have hl2 := ((playoutRound_safe hl ho e hv).of_ok e2).2.1
    have step : ∀ (j : Nat) (best : Nat → Game → List Move → Move), g1.simulate dbg best (j + 1) = (if g1.isOver then .ok g1 else do
        let l ← g1.legalsMoves dbg
        let g' ← g1.play dbg (best j g1 l)
        g'.simulate dbg best j) := fun _ _ => rfl
    have hrule : g2.rule = g1.rule := by
      unfold Game.playoutRound at e2
      obtain ⟨mv, _, e3⟩ := bind_eq_ok e2
      exact play_rule e3
    refine ⟨hl2, hrule.trans hr, fun j best hb => ?_⟩
    rcases round_simulated hl (by rw [hr]; exact hk) ho e hv with hp | ⟨l, mv, el, hmv, e3⟩
    · obtain ⟨best', h1, h2⟩ := ih (j + 1) best hb
      refine ⟨best', h1, Or.inr ?_⟩
      rw [Nat.add_right_comm, Nat.add_assoc]
      rcases h2 with h2 | h2
      · rw [h2, step, if_neg (by rw [ho]; simp), hp]; rfl
      · exact h2
    · obtain ⟨best', h1, h2⟩ := ih (j + 1) (fun i g l' => if i = j ∧ l' = l then mv else best i g l') (by
        intro i g l' hne
        dsimp only
        split
        · rename_i h; rw [h.2]; exact hmv
        · exact hb i g l' hne)
      refine ⟨best', h1, ?_⟩
      rw [Nat.add_right_comm, Nat.add_assoc]
      rcases h2 with h2 | h2
      · left
        rw [h2, step, if_neg (by rw [ho]; simp), el, ok_bind]
        rw [if_pos ⟨rfl, rfl⟩, ← e3, e2, ok_bind]
        refine simulate_congr _ _ (fun i hi => ?_)
        funext g l'
        rw [if_neg (by omega)]
      · exact Or.inr h2

/-- **C67** is false for the loop as it stands: under the Japanese rule there are choices of listed moves, from the empty 2 × 2 board,
that make it panic. -/
theorem C67_false (dbg : Bool) : ∃ g0, Game.new (.custom 2 2) JAPANESE = .ok g0 ∧ ¬ C67Full dbg g0 := by
  obtain ⟨g0, e, hl, k, g1, ps, v, hr, ho, e1, hv, e2⟩ := C57_false_witness dbg
  refine ⟨g0, e, fun h => ?_⟩
  have hk : g0.rule.flagIllegal.superko = false := by
    unfold Game.new at e
    obtain ⟨b, _, e⟩ := bind_eq_ok e
    cases e; rfl
  obtain ⟨h1, h2, h3⟩ := hr.simulate hl hk
  have hb0 : FromList (fun _ _ l => l.head?.getD .pass) := by
    intro _ _ l hne
    cases l with
    | nil => exact absurd rfl hne
    | cons a l => simp
  rcases round_simulated h1 (by rw [h2]; exact hk) ho e1 hv with hp | ⟨l, mv, el, hmv, e3⟩
  · obtain ⟨best, hb, hs⟩ := h3 1 _ hb0
    apply h best hb (k + 1)
    rcases hs with hs | hs
    · rw [hs, Game.simulate, if_neg (by rw [ho]; simp), hp]; rfl
    · exact hs
  · obtain ⟨best, hb, hs⟩ := h3 1 (fun _ _ l' => if l' = l then mv else l'.head?.getD .pass) (by
      intro i g l' hne
      dsimp only
      split
      · rename_i h; rw [h]; exact hmv
      · exact hb0 i g l' hne)
    apply h best hb (k + 1)
    rcases hs with hs | hs
    · rw [hs, Game.simulate, if_neg (by rw [ho]; simp), el, ok_bind]
      rw [if_pos rfl, ← e3, e2]
      rfl
    · exact hs

/-- A whole simulation on a 2 × 2 board under the Chinese rule, always choosing the last listed move: six stones and a capture of
three, then two passes. The rule of the examples above forbids super-ko and suicide. -/
example : okAnd (do
    let g0 ← Game.new (.custom 2 2) CHINESE
    let g ← g0.simulate true (fun _ _ l => l.getLast?.getD .pass) 20
    let d ← g0.deadStones true (fun _ _ l => l.getLast?.getD .pass) 20
    .ok (g, d)) (fun r => r.1.isOver && decide (r.1.passes = 2) && r.1.goban.numberOfStones == (0, 3) && r.1.prisoners == (0, 3) &&
      decide (r.2 = [])) = true ∧ CHINESE.flagIllegal.suicide = true ∧ CHINESE.flagIllegal.superko = true := by
  decide +kernel

end Model
