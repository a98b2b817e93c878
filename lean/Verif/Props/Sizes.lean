import Verif.Props.Scoring
import Verif.Props.Rules
import Verif.Props.Profile
/-!
# On which boards the crate plays Go (C107)

`C49` says that on a board whose width divides its height the answers and the stones are those of the abstract game. Here is the
converse: on every other size there is a sequence of at most four calls after which they are not. The code is the same for every
size; only the numbers of rows and columns differ.
-/

namespace Spec
open Model (Color)

variable {n : Dim} {pos : Pos} {p q : Pt} {c : Color}

theorem removeDead_none (h : pos q = none) : removeDead n pos c q = none := by
  unfold removeDead
  split
  · rfl
  · exact h

theorem play_none {sa : Bool} (h : pos q = none) (hq : q ≠ p) : play n sa pos p c q = none := by
  have : removeDead n (place pos p c) c.opp q = none := removeDead_none (by unfold place; rw [if_neg hq]; exact h)
  unfold play
  split
  · exact removeDead_none this
  · exact this

/-- A stone put next to an empty point stays. -/
theorem play_stays {sa : Bool} (hq : pos q = none) (ha : Adj p q) (hb : OnBoard n q) (hne : q ≠ p) : play n sa pos p c p = some c := by
  have h1 : removeDead n (place pos p c) c.opp p = some c := by
    unfold removeDead
    rw [if_neg]
    · unfold place; rw [if_pos rfl]
    · rintro ⟨h, _⟩
      unfold place at h
      rw [if_pos rfl] at h
      cases c <;> cases h
  have h2 : removeDead n (place pos p c) c.opp q = none := removeDead_none (by unfold place; rw [if_neg hne]; exact hq)
  unfold play
  split
  · generalize removeDead n (place pos p c) c.opp = a at h1 h2
    unfold removeDead
    rw [if_neg]
    · exact h1
    · rintro ⟨_, h⟩
      exact h ⟨p, q, .refl p, ha, hb, h2⟩
  · exact h1

/-- A lone black stone in the corner next to white stones has no liberty. -/
theorem corner_dead (h0 : pos (0, 0) = some .black) (h1 : pos (0, 1) = some .white) (h2 : n.h = 1 ∨ pos (1, 0) = some .white) :
    ¬ HasLiberty n pos (0, 0) := by
  have nb : ∀ r, Adj (0, 0) r → OnBoard n r → pos r = some .white := by
    rintro ⟨x, y⟩ ha hb
    unfold Adj at ha
    unfold OnBoard at hb
    dsimp only at ha hb
    have : (x = 0 ∧ y = 1) ∨ (x = 1 ∧ y = 0) := by omega
    rcases this with ⟨rfl, rfl⟩ | ⟨rfl, rfl⟩
    · exact h1
    · rcases h2 with h2 | h2
      · omega
      · exact h2
  have alone : ∀ r, Linked n pos (0, 0) r → r = (0, 0) := by
    intro r hl
    induction hl with
    | refl => rfl
    | step _ ha hb hc ih =>
      subst ih
      rw [nb _ ha hb, h0] at hc
      cases hc
  rintro ⟨q, r, hl, ha, hb, hr⟩
  rw [alone q hl] at ha
  rw [nb r ha hb] at hr
  cases hr

/-- Taking the last liberty of a black stone in the corner removes it. -/
theorem corner_taken {sa : Bool} (h0 : pos (0, 0) = some .black ∨ pos (0, 0) = none) (hp : p ≠ (0, 0))
    (h1 : place pos p .white (0, 1) = some .white) (h2 : n.h = 1 ∨ place pos p .white (1, 0) = some .white) :
    play n sa pos p .white (0, 0) = none := by
  have h0' : place pos p .white (0, 0) = pos (0, 0) := by unfold place; rw [if_neg (Ne.symm hp)]
  rcases h0 with h0 | h0
  · have : removeDead n (place pos p .white) .black (0, 0) = none := by
      unfold removeDead
      rw [if_pos ⟨by rw [h0', h0], corner_dead (by rw [h0', h0]) h1 h2⟩]
    unfold play
    dsimp only [Color.opp]
    split
    · exact removeDead_none this
    · exact this
  · exact play_none h0 (Ne.symm hp)

theorem step_ok {r : Forbidden} {s : State} {a : Call} (h : (step n r s a).1 = .ok) : (step n r s a).2 = apply n r s a := by
  unfold step at h ⊢
  split
  · rfl
  · rename_i hn
    rw [if_neg hn] at h
    exact absurd h hn

theorem step_suicide {r : Forbidden} {s : State} (h : (step n r s (.play p)).1 = .suicide) : Suicide n s.pos p s.turn := by
  have ha : answer n r s (.play p) = .suicide := by
    unfold step at h
    split at h
    · cases h
    · exact h
  unfold answer at ha
  dsimp only at ha
  split at ha
  · cases ha
  split at ha
  · cases ha
  split at ha
  · rename_i hs; exact hs.2
  split at ha
  · cases ha
  split at ha
  · cases ha
  split at ha <;> cases ha

end Spec

namespace Model
open Spec (OnBoard Adj Linked HasLiberty NoDead place SameOn Pos State)

variable {dbg : Bool}

/-- From the empty board, every sequence of calls with on-board coordinates is answered as in the abstract game, and at the end the
game looks like the state of the abstract game. -/
def PlaysGo (dbg : Bool) (h w : Nat) (rule : Rule) : Prop :=
  ∀ g0, Game.new (.custom h w) rule = .ok g0 → ∀ cs : List GOp, (∀ c ∈ cs, c.OnBoard ⟨h, w⟩) → cs.length < 65536 →
    ∃ es g, g0.run dbg cs = .ok (es, g) ∧
      es.map toAnswer = (Spec.run ⟨h, w⟩ rule.flagIllegal.forbidden (.start (fun _ => none) .black) (cs.map GOp.call)).1 ∧
      Looks ⟨h, w⟩ none g (Spec.run ⟨h, w⟩ rule.flagIllegal.forbidden (.start (fun _ => none) .black) (cs.map GOp.call)).2

theorem new_view_empty {s : Size} {b : Goban} (e : Goban.new s = .ok b) : b.view = fun _ => none := by
  unfold Goban.new at e
  obtain ⟨_, _, e⟩ := bind_eq_ok e
  cases e
  funext p
  unfold Goban.view Goban.getColor Goban.getColorIdx Goban.boardAt
  dsimp only
  rw [List.getElem?_replicate]
  by_cases h : twoTo1dim s p < BOARD_MAX_LENGTH
  · rw [if_pos h]; rfl
  · rw [if_neg h]; rfl

/-- The calls after which something is wrong, and where. -/
def badCalls (h w : Nat) : List Move :=
  if h = 1 then [.play 0 0, .play 0 1]
  else if h < w then [.play 0 h]
  else [.play 0 0, .play 0 1, .pass, .play 1 0]

/-- The point that shows Black though it is empty in the abstract game. -/
def badPoint (h w : Nat) : Coord := if h = 1 then (0, 0) else if h < w then (1, 0) else (0, 0)

/-- A rule that forbids everything, with or without suicide. -/
def strict (su : Bool) : Rule :=
  { komi := .fin 0, flagIllegal := ⟨true, true, su, true⟩, flagScore := ⟨false, false, false⟩ }

/-- Under the strictest rule the calls are accepted and the point shows Black. -/
def goesWrong (su : Bool) (h w : Nat) : Bool :=
  okAnd (do let g ← Game.new (.custom h w) (strict su); g.run false ((badCalls h w).map .try_))
    (fun r => r.1.all (· == none) && okAnd (r.2.goban.getColor (badPoint h w)) (· == some .black))

theorem goesWrong_sizes : ∀ h w : Fin 19, (w.val + 1) ∣ (h.val + 1) ∨
    (goesWrong false (h + 1) (w + 1) = true ∧ ((h.val = 0 ∧ w.val = 1) ∨ goesWrong true (h + 1) (w + 1) = true)) := by decide +kernel

/-- The same under every rule, in a release build (1×2 with suicide forbidden aside). -/
theorem goes_wrong {h w : Nat} (hh : 1 ≤ h) (hh' : h ≤ 19) (hw : 1 ≤ w) (hw' : w ≤ 19) (hd : ¬ w ∣ h) {rule : Rule}
    (hx : ¬ ((h = 1 ∧ w = 2) ∧ rule.flagIllegal.suicide = true)) {g0 : Game} (e : Game.new (.custom h w) rule = .ok g0) :
    ∃ es g, g0.run false ((badCalls h w).map .try_) = .ok (es, g) ∧ (∀ a ∈ es, a = none) ∧
      g.goban.getColor (badPoint h w) = .ok (some .black) := by
  obtain ⟨h, rfl⟩ := Nat.exists_eq_add_of_le' hh
  obtain ⟨w, rfl⟩ := Nat.exists_eq_add_of_le' hw
  have k : goesWrong rule.flagIllegal.suicide (h + 1) (w + 1) = true := by
    rcases goesWrong_sizes ⟨h, by omega⟩ ⟨w, by omega⟩ with h1 | ⟨h1, h2⟩
    · exact absurd h1 hd
    · cases hs : rule.flagIllegal.suicide with
      | false => exact h1
      | true =>
        rcases h2 with h2 | h2
        · simp only at h2
          exact absurd ⟨⟨by omega, by omega⟩, hs⟩ hx
        · exact h2
  unfold goesWrong at k
  obtain ⟨⟨es, a⟩, k1, k2⟩ := okAnd_iff.mp k
  obtain ⟨g1, e1, k1⟩ := bind_eq_ok k1
  dsimp only at k2
  rw [Bool.and_eq_true, List.all_eq_true] at k2
  obtain ⟨k2, k3⟩ := k2
  obtain ⟨col, k3, k4⟩ := okAnd_iff.mp k3
  have hes : ∀ a ∈ es, a = none := fun a ha => by simpa using k2 a ha
  have s : SameBoard g1 g0 ∧ g1.rule = strict rule.flagIllegal.suicide ∧ g0.rule = rule := by
    unfold Game.new at e e1
    obtain ⟨b, eb, e⟩ := bind_eq_ok e
    obtain ⟨b', eb', e1⟩ := bind_eq_ok e1
    rw [eb] at eb'
    cases eb'
    cases e
    cases e1
    exact ⟨⟨rfl, rfl, rfl, rfl, rfl, rfl, rfl, rfl, rfl⟩, rfl, rfl⟩
  obtain ⟨b, e2, s'⟩ := C108_run_weaker s.1 (by
    rw [s.2.1, s.2.2]
    exact ⟨fun _ => rfl, fun _ => rfl, fun h => h, fun _ => rfl⟩) k1 hes
  refine ⟨es, b, e2, hes, ?_⟩
  rw [s'.goban, k3]
  congr 1
  simpa using k4

/-- In the abstract game, if all the calls are accepted, the point is empty at the end. -/
theorem spec_empty {h w : Nat} (hh : 1 ≤ h) (hw : 1 ≤ w) (hd : ¬ w ∣ h) {r : Spec.Forbidden}
    (ha : ∀ a ∈ (Spec.run ⟨h, w⟩ r (.start (fun _ => none) .black) ((badCalls h w).map (fun m => (GOp.try_ m).call))).1, a = .ok) :
    (Spec.run ⟨h, w⟩ r (.start (fun _ => none) .black) ((badCalls h w).map (fun m => (GOp.try_ m).call))).2.pos (badPoint h w) = none := by
  have hw1 : w ≠ 1 := by rintro rfl; exact hd (Nat.one_dvd _)
  have hwh : w ≠ h := by rintro rfl; exact hd (Nat.dvd_refl _)
  by_cases h1 : h = 1
  · subst h1
    simp only [badCalls, badPoint, if_true, List.map_cons, List.map_nil, GOp.call, Move.call, Spec.run] at ha ⊢
    have a1 := ha _ List.mem_cons_self
    have a2 := ha _ (List.mem_cons_of_mem _ List.mem_cons_self)
    rw [Spec.step_ok a2]
    rw [Spec.step_ok a1]
    simp only [Spec.apply, State.start, Color.opp]
    refine Spec.corner_taken (.inl ?_) (by decide) (by simp [Spec.place]) (.inl rfl)
    exact Spec.play_stays (q := (0, 1)) rfl (by decide) ⟨by simp, by simp only; omega⟩ (by decide)
  · by_cases h2 : h < w
    · simp only [badCalls, badPoint, h1, h2, if_true, if_false, List.map_cons, List.map_nil, GOp.call, Move.call, Spec.run] at ha ⊢
      have a1 := ha _ List.mem_cons_self
      rw [Spec.step_ok a1]
      simp only [Spec.apply, State.start, Color.opp]
      exact Spec.play_none rfl (by simp)
    · simp only [badCalls, badPoint, h1, h2, if_false, List.map_cons, List.map_nil, GOp.call, Move.call, Spec.run] at ha ⊢
      have a1 := ha _ List.mem_cons_self
      have a2 := ha _ (List.mem_cons_of_mem _ List.mem_cons_self)
      have a3 := ha _ (List.mem_cons_of_mem _ (List.mem_cons_of_mem _ List.mem_cons_self))
      have a4 := ha _ (List.mem_cons_of_mem _ (List.mem_cons_of_mem _ (List.mem_cons_of_mem _ List.mem_cons_self)))
      rw [Spec.step_ok a4, Spec.step_ok a3, Spec.step_ok a2, Spec.step_ok a1]
      simp only [Spec.apply, State.start, Color.opp]
      have on (x y : Nat) (hx : x ≤ 1) (hy : y ≤ 1) : OnBoard ⟨h, w⟩ (x, y) := ⟨by simp only; omega, by simp only; omega⟩
      generalize hp1 : Spec.play ⟨h, w⟩ (!r.suicide) (fun _ => none) (0, 0) Color.black = p1
      have b1 : p1 (0, 0) = some .black := by
        rw [← hp1]
        exact Spec.play_stays (q := (0, 1)) rfl (by decide) (on _ _ (by omega) (by omega)) (by decide)
      have b2 : p1 (1, 1) = none := by rw [← hp1]; exact Spec.play_none rfl (by decide)
      generalize hp2 : Spec.play ⟨h, w⟩ (!r.suicide) p1 (0, 1) Color.white = p2
      have c1 : p2 (0, 1) = some .white := by
        rw [← hp2]
        exact Spec.play_stays (q := (1, 1)) b2 (by decide) (on _ _ (by omega) (by omega)) (by decide)
      have c2 : p2 (0, 0) = some .black ∨ p2 (0, 0) = none := by
        rw [← hp2]
        have d1 : Spec.removeDead ⟨h, w⟩ (place p1 (0, 1) .white) Color.white.opp (0, 0) = some .black ∨
            Spec.removeDead ⟨h, w⟩ (place p1 (0, 1) .white) Color.white.opp (0, 0) = none := by
          unfold Spec.removeDead
          split
          · exact .inr rfl
          · left; unfold place; rw [if_neg (by decide)]; exact b1
        unfold Spec.play
        split
        · rcases d1 with d1 | d1
          · generalize Spec.removeDead ⟨h, w⟩ (place p1 (0, 1) .white) Color.white.opp = a at d1
            unfold Spec.removeDead
            split
            · exact .inr rfl
            · exact .inl d1
          · exact .inr (Spec.removeDead_none d1)
        · exact d1
      refine Spec.corner_taken c2 (by decide) ?_ (.inr ?_)
      · unfold place; rw [if_neg (by decide)]; exact c1
      · unfold place; rw [if_pos rfl]

theorem one_by_two_calls : ∀ a b d : Bool, okAnd (do
      let g ← Game.new (.custom 1 2) { komi := .fin 0, flagIllegal := ⟨a, b, true, d⟩, flagScore := ⟨false, false, false⟩ }
      g.run false ((badCalls 1 2).map .try_)) (fun r => r.1 == [none, some .suicide]) = true := by decide +kernel

/-- On the 1×2 board with suicide forbidden the capture is refused. -/
theorem one_by_two {rule : Rule} (hs : rule.flagIllegal.suicide = true) {g0 : Game} (e : Game.new (.custom 1 2) rule = .ok g0) :
    ∃ g, g0.run false ((badCalls 1 2).map .try_) = .ok ([none, some .suicide], g) := by
  obtain ⟨k, ⟨a, b, c, d⟩, f⟩ := rule
  cases hs
  obtain ⟨⟨es, x⟩, k1, k2⟩ := okAnd_iff.mp (one_by_two_calls a b d)
  obtain ⟨g1, e1, k1⟩ := bind_eq_ok k1
  have hes : es = [none, some .suicide] := by simpa using k2
  subst hes
  have s : SamePlay g1 g0 := by
    unfold Game.new at e e1
    obtain ⟨b, eb, e⟩ := bind_eq_ok e
    obtain ⟨b', eb', e1⟩ := bind_eq_ok e1
    rw [eb] at eb'
    cases eb'
    cases e
    cases e1
    exact ⟨⟨rfl, rfl, rfl, rfl, rfl, rfl, rfl, rfl, rfl⟩, rfl⟩
  have := C108_run (dbg := false) (cs := (badCalls 1 2).map .try_) (cs' := (badCalls 1 2).map .try_)
    (.cons (.try_ _) (.cons (.try_ _) .nil)) s
  rw [k1] at this
  revert this
  generalize g0.run false ((badCalls 1 2).map .try_) = y
  intro this
  cases this
  exact ⟨_, rfl⟩

theorem one_by_two_spec {r : Spec.Forbidden} :
    (Spec.run ⟨1, 2⟩ r (.start (fun _ => none) .black) ((badCalls 1 2).map (fun m => (GOp.try_ m).call))).1 ≠ [.ok, .suicide] := by
  intro ha
  simp only [badCalls, if_true, List.map_cons, List.map_nil, GOp.call, Move.call, Spec.run, List.cons.injEq, and_true] at ha
  obtain ⟨a1, a2⟩ := ha
  have hs := Spec.step_suicide a2
  rw [Spec.step_ok a1] at hs
  simp only [Spec.apply, State.start, Color.opp] at hs
  refine hs ⟨(0, 1), (0, 0), .refl _, by decide, ⟨by simp, by simp⟩, ?_⟩
  generalize hp1 : Spec.play ⟨1, 2⟩ (!r.suicide) (fun _ => none) (0, 0) Color.black = p1
  have b1 : p1 (0, 0) = some .black := by
    rw [← hp1]
    exact Spec.play_stays (q := (0, 1)) rfl (by decide) ⟨by simp, by simp⟩ (by decide)
  have b2 : place p1 (0, 1) Color.white (0, 0) = some .black := by unfold place; rw [if_neg (by decide)]; exact b1
  unfold Spec.removeDead
  rw [if_pos ⟨b2, Spec.corner_dead b2 (by unfold place; rw [if_pos rfl]) (.inl rfl)⟩]

/-- **C107**, the failing sizes, under every rule: in a release build at most four on-board calls return, and either an answer is not
that of the abstract game or some point of the board shows something else. -/
theorem C107_differs {h w : Nat} (hh : 1 ≤ h) (hh' : h ≤ 19) (hw : 1 ≤ w) (hw' : w ≤ 19) (hd : ¬ w ∣ h) {rule : Rule} {g0 : Game}
    (e : Game.new (.custom h w) rule = .ok g0) : ∃ (cs : List GOp) (es : List (Option PlayError)) (g : Game),
      cs.length ≤ 4 ∧ (∀ c ∈ cs, c.OnBoard ⟨h, w⟩) ∧ g0.run false cs = .ok (es, g) ∧
      (es.map toAnswer ≠ (Spec.run ⟨h, w⟩ rule.flagIllegal.forbidden (.start (fun _ => none) .black) (cs.map GOp.call)).1 ∨
       ∃ p, OnBoard ⟨h, w⟩ p ∧ g.goban.getColor p ≠
        .ok ((Spec.run ⟨h, w⟩ rule.flagIllegal.forbidden (.start (fun _ => none) .black) (cs.map GOp.call)).2.pos p)) := by
  have hw1 : w ≠ 1 := by rintro rfl; exact hd (Nat.one_dvd _)
  have hwh : w ≠ h := by rintro rfl; exact hd (Nat.dvd_refl _)
  have hlen : ((badCalls h w).map GOp.try_).length ≤ 4 := by
    rw [List.length_map]; unfold badCalls
    split
    · decide
    split <;> simp
  have hon : ∀ c ∈ (badCalls h w).map GOp.try_, c.OnBoard ⟨h, w⟩ := by
    intro c hc
    unfold badCalls at hc
    split at hc
    · simp only [List.map_cons, List.map_nil, List.mem_cons, List.not_mem_nil, or_false] at hc
      rcases hc with rfl | rfl <;> exact ⟨by simp only; omega, by simp only; omega⟩
    split at hc
    · simp only [List.map_cons, List.map_nil, List.mem_cons, List.not_mem_nil, or_false] at hc
      subst hc; exact ⟨by simp only; omega, by simp only; omega⟩
    · simp only [List.map_cons, List.map_nil, List.mem_cons, List.not_mem_nil, or_false] at hc
      rcases hc with rfl | rfl | rfl | rfl
      · exact ⟨by simp only; omega, by simp only; omega⟩
      · exact ⟨by simp only; omega, by simp only; omega⟩
      · trivial
      · exact ⟨by simp only; omega, by simp only; omega⟩
  have hpt : OnBoard ⟨h, w⟩ (badPoint h w) := by
    unfold badPoint
    split
    · exact ⟨by simp only; omega, by simp only; omega⟩
    split <;> exact ⟨by simp only; omega, by simp only; omega⟩
  by_cases hx : (h = 1 ∧ w = 2) ∧ rule.flagIllegal.suicide = true
  · obtain ⟨⟨rfl, rfl⟩, hs⟩ := hx
    obtain ⟨g, eg⟩ := one_by_two hs e
    refine ⟨_, _, g, hlen, hon, eg, .inl ?_⟩
    rw [List.map_map]
    exact fun h => one_by_two_spec h.symm
  · obtain ⟨es, g, eg, hes, hc⟩ := goes_wrong hh hh' hw hw' hd hx e
    refine ⟨_, es, g, hlen, hon, eg, ?_⟩
    by_cases ha : es.map toAnswer = (Spec.run ⟨h, w⟩ rule.flagIllegal.forbidden (.start (fun _ => none) .black)
        (((badCalls h w).map GOp.try_).map GOp.call)).1
    · refine .inr ⟨badPoint h w, hpt, ?_⟩
      rw [List.map_map] at ha ⊢
      have := spec_empty hh hw hd (r := rule.flagIllegal.forbidden) (by
        intro a hm
        change a ∈ (Spec.run _ _ _ ((badCalls h w).map (GOp.call ∘ GOp.try_))).1 at hm
        rw [← ha] at hm
        obtain ⟨x, hx, rfl⟩ := List.mem_map.mp hm
        rw [hes x hx]; rfl)
      change (Spec.run _ _ _ ((badCalls h w).map (GOp.call ∘ GOp.try_))).2.pos _ = none at this
      rw [this, hc]
      intro h; cases h
    · exact .inl ha

/-- **C107**. For every size and every rule under which `C49` speaks of the abstract game, in both builds: the crate plays Go on the
board exactly when the number of columns divides the number of rows. -/
theorem C107_sizes {h w : Nat} (hh : 1 ≤ h) (hh' : h ≤ 19) (hw : 1 ≤ w) (hw' : w ≤ 19) {rule : Rule}
    (hr : rule.flagIllegal.suicide = true ∨ rule.flagIllegal.ko = false) : PlaysGo dbg h w rule ↔ w ∣ h := by
  constructor
  · intro hp
    refine Classical.byContradiction fun hd => ?_
    obtain ⟨g0, e⟩ : ∃ g0, Game.new (.custom h w) rule = .ok g0 := by
      rcases C53_new_partial (.custom h w) rule (show h < 256 by omega) (show w < 256 by omega) with ⟨_, hn⟩ | ⟨_, g, e, _⟩
      · exact absurd ⟨hh', hw'⟩ hn
      · exact ⟨g, e⟩
    obtain ⟨cs, es, g, hl, hon, eg, hdiff⟩ := C107_differs hh hh' hw hw' hd e
    obtain ⟨es', g', eg', h1, h2⟩ := hp g0 e cs hon (by omega)
    have : es' = es ∧ g' = g := by
      have eg'' : g0.run false cs = .ok (es', g') := by
        cases dbg with
        | false => exact eg'
        | true => exact (Game.run_le cs g0).ok _ eg'
      rw [eg] at eg''
      cases eg''; exact ⟨rfl, rfl⟩
    obtain ⟨rfl, rfl⟩ := this
    rcases hdiff with hdiff | ⟨p, hpb, hdiff⟩
    · exact hdiff h1
    · exact hdiff (h2.colours p hpb)
  · intro hd g0 e cs hcs hl
    have hf : Fresh dbg ⟨h, w⟩ 0 g0 := .new hd (by
      show (u8 h, u8 w) = (h, w)
      unfold u8
      rw [Nat.mod_eq_of_lt (show h < 256 by omega), Nat.mod_eq_of_lt (show w < 256 by omega)]) e
    have hb : g0.goban.view = (fun _ => none) ∧ g0.rule = rule ∧ g0.turn = .black ∧ g0.outcome = none := by
      unfold Game.new at e
      obtain ⟨b, eb, e⟩ := bind_eq_ok e
      cases e
      exact ⟨new_view_empty eb, rfl, rfl, rfl⟩
    have hnd : NoDead ⟨h, w⟩ g0.goban.view := by
      intro p _ hp
      rw [hb.1] at hp
      exact absurd rfl hp
    obtain ⟨es, g, eg, _⟩ := C49_total hf hnd hcs (by omega)
    have := C49_refines hf hnd (by rw [hb.2.1]; exact hr) hcs eg
    rw [hb.1, hb.2.1, hb.2.2.1, hb.2.2.2] at this
    exact ⟨es, g, eg, this⟩

/-- Non-vacuity of C107: the two sizes named in the README. On neither does the crate play Go. On 4×2 it does. -/
theorem C107_readme : ¬ PlaysGo dbg 4 5 JAPANESE ∧ ¬ PlaysGo dbg 4 9 JAPANESE ∧ ¬ PlaysGo dbg 5 4 CHINESE ∧ PlaysGo dbg 4 2 CHINESE ∧
    PlaysGo dbg 19 19 JAPANESE := by
  refine ⟨?_, ?_, ?_, ?_, ?_⟩
  · rw [C107_sizes (by decide) (by decide) (by decide) (by decide) (by decide)]; decide
  · rw [C107_sizes (by decide) (by decide) (by decide) (by decide) (by decide)]; decide
  · rw [C107_sizes (by decide) (by decide) (by decide) (by decide) (by decide)]; decide
  · rw [C107_sizes (by decide) (by decide) (by decide) (by decide) (by decide)]; decide
  · rw [C107_sizes (by decide) (by decide) (by decide) (by decide) (by decide)]; decide

end Model
