import Verif.Props.Bench
import Verif.Props.Simulate
/-!
# C75, continued: whole games of the benchmarks
-/

namespace Model
open Spec (OnBoard)

variable {dbg : Bool} {m : Nat} {g : Game} {n : Dim}

/-- One round of `play_game` on a legal game that is not over. -/
theorem playGame_round (h : Legal dbg n m g) (ho : g.isOver = false) {sh : List Coord → List Coord} (hsh : ∀ l, (sh l).Perm l) :
    Safe g.Full (do let ls ← g.legals dbg; let mv ← g.playRandom dbg (sh ls); g.play dbg mv) (fun g' =>
      (∃ mv, mv.OnBoard n ∧ g.tryPlay dbg mv = .ok (none, g')) ∧ Legal dbg n (m + 1) g' ∧ g'.passes ≤ 2 ∧
      2 * g.goban.age n + g.passes + 1 ≤ 2 * g'.goban.age n + g'.passes) := by
  obtain ⟨m', hm', hr⟩ := h.reach
  rcases legalsBy_any (dbg := dbg) hr.inv (fun b hb => by
    obtain ⟨_, _, h'⟩ := hr.spec.history b hb
    exact h'.inv.1) g.rule.flagIllegal with ⟨ls, e, _⟩ | ⟨e, hf⟩
  · have hl := (C91_legals_by hr g.rule.flagIllegal).of_ok e
    have e' : g.legals dbg = .ok ls := e
    rw [e', ok_bind]
    have hmem : ∀ p ∈ sh ls, OnBoard n p ∧ g.goban.getColor p = .ok none ∧ g.checkPoint dbg p = .ok none := by
      intro p hp
      have hp := (hsh ls).mem_iff.1 hp
      rw [hl, List.mem_filter, mem_scan hr.inv.good, decide_eq_true_eq] at hp
      exact ⟨hp.1.1, hp.2⟩
    have key : ∀ v : List Coord, (∀ p ∈ v, OnBoard n p ∧ g.goban.getColor p = .ok none ∧ g.checkPoint dbg p = .ok none) →
        ∃ mv, g.playRandom dbg v = .ok mv ∧ (mv = .pass ∨ ∃ p ∈ v, mv = .play p.1 p.2) := by
      intro v
      induction v with
      | nil => intro _; exact ⟨_, rfl, Or.inl rfl⟩
      | cons c v ih =>
        intro hv
        obtain ⟨b, e2, _⟩ := checkEye_ok (dbg := dbg) (c := g.turn) hr.inv (hv c (by simp)).1
        obtain ⟨mv, e3, h3⟩ := ih (fun p hp => hv p (by simp [hp]))
        unfold Game.playRandom
        rw [e2, ok_bind]
        cases b with
        | true => exact ⟨mv, by simpa using e3, h3.imp_right (fun ⟨p, h1, h2⟩ => ⟨p, by simp [h1], h2⟩)⟩
        | false => exact ⟨_, rfl, Or.inr ⟨c, by simp, rfl⟩⟩
    obtain ⟨mv, e3, h3⟩ := key _ hmem
    rw [e3, ok_bind]
    rcases h3 with rfl | ⟨⟨x, y⟩, hp, rfl⟩
    · exact (accepted_safe h ho (Or.inl rfl)).mono (fun g' h => ⟨⟨.pass, trivial, h.1⟩, h.2⟩)
    · obtain ⟨h1, h2, h4⟩ := hmem _ hp
      exact (accepted_safe h ho (Or.inr ⟨x, y, rfl, h1, h2, h4⟩)).mono (fun g' h => ⟨⟨.play x y, h1, h.1⟩, h.2⟩)
  · have e' : g.legals dbg = panic := e
    rw [e']
    exact Or.inr ⟨rfl, hf⟩

/-- **C75**. `play_game` from any legal game under any rule, whatever the shuffles: within `2 · (131070 · (a + 1) + a) + 2` rounds, `a` the
number of points, the game is over, reached by accepted moves; or it panics after accepted moves that have filled the group table. -/
theorem C75_play_game (h : Legal dbg n m g) {sh : Nat → List Coord → List Coord} (hsh : ∀ k l, (sh k l).Perm l) :
    (∃ g' k, g.playGame dbg sh (2 * lifeOf n + 2) = .ok g' ∧ g'.isOver = true ∧ Accepted dbg n g k g') ∨
      (g.playGame dbg sh (2 * lifeOf n + 2) = panic ∧ ∃ k g', Accepted dbg n g k g' ∧ g'.Full ∧ 65535 ≤ m + k) := by
  have key : ∀ (k j : Nat) (g1 : Game), Accepted dbg n g j g1 → Legal dbg n (m + j) g1 → g1.passes ≤ 2 →
      2 * lifeOf n + 2 ≤ k + (2 * g1.goban.age n + g1.passes) →
      (∃ g' j', g1.playGame dbg sh k = .ok g' ∧ g'.isOver = true ∧ Accepted dbg n g j' g') ∨
      (g1.playGame dbg sh k = panic ∧ ∃ k g', Accepted dbg n g k g' ∧ g'.Full ∧ 65535 ≤ m + k) := by
    intro k
    induction k with
    | zero =>
      intro j g1 ha h hp hk
      obtain ⟨m', _, hr⟩ := h.reach
      have h1 : g1.goban.age n ≤ lifeOf n := age_le hr.inv
      have ho : g1.isOver = true := by
        cases ho : g1.isOver with
        | true => rfl
        | false => have := not_over_passes ho; omega
      unfold Game.playGame
      rw [if_pos ho]
      exact Or.inl ⟨g1, j, rfl, ho, ha⟩
    | succ k ih =>
      intro j g1 ha h hp hk
      unfold Game.playGame
      cases ho : g1.isOver with
      | true => exact Or.inl ⟨g1, j, rfl, ho, ha⟩
      | false =>
        obtain ⟨m', hm', hr⟩ := h.reach
        rcases playGame_round h ho (hsh k) with ⟨g', e1, ⟨mv, h0, e0⟩, h1, h2, h3⟩ | ⟨e1, hf⟩
        · obtain ⟨ls, el, e1⟩ := bind_eq_ok e1
          obtain ⟨mv', em, e1⟩ := bind_eq_ok e1
          rw [if_neg (by decide), el, ok_bind, em, ok_bind, e1, ok_bind]
          exact ih (j + 1) g' (.move ha h0 e0) h1 h2 (by omega)
        · right
          refine ⟨?_, j, g1, ha, hf, Nat.le_trans (hr.full hf) hm'⟩
          rw [if_neg (by decide)]
          cases el : g1.legals dbg with
          | error x => rw [el] at e1; exact e1
          | ok ls =>
            rw [el, ok_bind] at e1
            rw [ok_bind]
            cases em : g1.playRandom dbg (sh k ls) with
            | error x => rw [em] at e1; exact e1
            | ok mv =>
              rw [em, ok_bind] at e1
              rw [ok_bind, e1]; rfl
  obtain ⟨_, s, _, _, hp, hs⟩ := h.sim
  exact key _ 0 g .start h (by rw [hs.passes]; exact hp) (by omega)

theorem playGame_congr {sh sh' : Nat → List Coord → List Coord} : ∀ (k : Nat) (g : Game), (∀ j < k, sh j = sh' j) →
    g.playGame dbg sh k = g.playGame dbg sh' k
  | 0, _, _ => rfl
  | k + 1, g, h => by
    unfold Game.playGame
    rw [h k (Nat.lt_succ_self _)]
    have ih := fun g' => playGame_congr k g' (fun j hj => h j (Nat.lt_succ_of_lt hj))
    simp only [ih]

/-- A shuffle with a given result on a given list, and another shuffle on later rounds. -/
theorem shuffle_extend {sh : Nat → List Coord → List Coord} (hsh : ∀ k l, (sh k l).Perm l) (k : Nat) {ps v : List Coord} (hv : v.Perm ps) :
    ∃ sh' : Nat → List Coord → List Coord, (∀ k l, (sh' k l).Perm l) ∧ sh' k ps = v ∧ ∀ j < k, sh' j = sh j := by
  refine ⟨fun j l => if j = k ∧ l = ps then v else sh j l, fun j l => ?_, by simp, fun j hj => ?_⟩
  · dsimp only
    split
    · rename_i h; rw [h.2]; exact hv
    · exact hsh j l
  · funext l
    exact if_neg (fun h => absurd h.1 (by omega))

/-- **C75**. `play_game` and the fast play-out end in the same games: a game is the end of the one for some shuffles iff it is the end of
the other for some shuffles. -/
theorem C75_same_games (k : Nat) : ∀ {m : Nat} {g : Game} (_ : Legal dbg n m g) (_ : m + k ≤ 65535) (g' : Game),
    (∃ sh : Nat → List Coord → List Coord, (∀ k l, (sh k l).Perm l) ∧ g.playGame dbg sh k = .ok g') ↔
      ∃ sh : Nat → List Coord → List Coord, (∀ k l, (sh k l).Perm l) ∧ g.playout dbg sh k = .ok g' := by
  induction k with
  | zero => intro m g h hm g'; exact Iff.rfl
  | succ k ih =>
    intro m g h hm g'
    unfold Game.playGame Game.playout
    cases ho : g.isOver with
    | true => exact Iff.rfl
    | false =>
      obtain ⟨m', hm', hr⟩ := h.reach
      have hps : g.passes ≠ 2 := by have := not_over_passes ho; omega
      obtain ⟨ps, ep, _⟩ : ∃ ps, g.pseudoLegals = .ok ps ∧ ∀ p ∈ ps, OnBoard n p := getEmptyCoords_any hr.inv
      have el := C91_legals hr hps (show m' < 65535 by omega)
      obtain ⟨p1, p2, p3⟩ := C75_policies hr hps (show m' < 65535 by omega) el ep
      simp only [Bool.false_eq_true, if_false, el, ep, ok_bind]
      constructor
      · rintro ⟨sh, hsh, e⟩
        obtain ⟨mv, e1, hmv⟩ := p1 _ (hsh k _)
        rw [e1, ok_bind] at e
        obtain ⟨g1, e2, e⟩ := bind_eq_ok e
        obtain ⟨v, hv, ev⟩ := (p3 mv hmv).2
        have hl1 : Legal dbg n (m + 1) g1 := ((playoutRound_safe h ho ep hv).of_ok (by unfold Game.playoutRound; rw [ev, ok_bind, e2])).2.1
        obtain ⟨sh1, hsh1, e3⟩ := (ih hl1 (by omega) g').1 ⟨sh, hsh, e⟩
        obtain ⟨sh2, hsh2, e4, e5⟩ := shuffle_extend hsh1 k hv
        refine ⟨sh2, hsh2, ?_⟩
        unfold Game.playoutRound
        rw [e4, ev, ok_bind, e2, ok_bind, playout_congr k g1 e5]
        exact e3
      · rintro ⟨sh, hsh, e⟩
        unfold Game.playoutRound at e
        obtain ⟨mv, e1, hmv⟩ := p2 _ (hsh k _)
        rw [e1, ok_bind] at e
        obtain ⟨g1, e2, e⟩ := bind_eq_ok e
        obtain ⟨v, hv, ev⟩ := (p3 mv hmv).1
        have hl1 : Legal dbg n (m + 1) g1 :=
          ((playoutRound_safe h ho ep (hsh k _)).of_ok (by unfold Game.playoutRound; rw [e1, ok_bind, e2])).2.1
        obtain ⟨sh1, hsh1, e3⟩ := (ih hl1 (by omega) g').2 ⟨sh, hsh, e⟩
        obtain ⟨sh2, hsh2, e4, e5⟩ := shuffle_extend hsh1 k hv
        refine ⟨sh2, hsh2, ?_⟩
        rw [e4, ev, ok_bind, e2, ok_bind, playGame_congr k g1 e5]
        exact e3

/-- Whole games on the 3 × 3 board under the Chinese rule, the points taken in the order of the lists: both loops end in the same game,
after captures on both sides. -/
example : ∃ g, Legal true 3 0 g ∧ (match g.playGame true (fun _ l => l) 60, g.playout true (fun _ l => l) 60 with
    | .ok a, .ok b => decide (a.isOver = true ∧ a = b ∧ a.prisoners = (7, 1))
    | _, _ => false) = true :=
  mkGame_exists (rule := CHINESE) (l := []) (by decide) (by decide +kernel)

end Model
