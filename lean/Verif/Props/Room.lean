import Verif.Proofs.Room
import Verif.Props.Limits
import Verif.Props.Board
import Verif.Props.RectMoves
/-!
# C87: exactly when a stone cannot be recorded
-/

namespace Model
open Spec (OnBoard Adj Linked Joins)

/-- Boards reached from the empty one with `push` on empty points of the board and removals of groups, and the number of stones
pushed that did not join exactly one group of their colour. -/
inductive BoardRecords (dbg : Bool) (n : Dim) : Nat → Goban → Prop
  | new {b} : n.Fits → Goban.new n.sz = .ok b → BoardRecords dbg n 0 b
  | join {r b p c b'} : BoardRecords dbg n r b → OnBoard n p → b.getColor p = .ok none → Joins n b.view p c →
      b.push dbg p c = .ok b' → BoardRecords dbg n r b'
  | other {r b p c b'} : BoardRecords dbg n r b → OnBoard n p → b.getColor p = .ok none → ¬ Joins n b.view p c →
      b.push dbg p c = .ok b' → BoardRecords dbg n (r + 1) b'
  | remove {r b k b'} : BoardRecords dbg n r b → b.Live k → b.removeChain dbg k = .ok b' → BoardRecords dbg n r b'

theorem BoardRecords.board {dbg : Bool} {n : Dim} {r : Nat} {b : Goban} (h : BoardRecords dbg n r b) : ∃ m, Board dbg n m b := by
  induction h with
  | new hf e => exact ⟨0, .new hf e⟩
  | join _ hp hv _ e ih => exact ⟨_, .push ih.choose_spec hp hv e⟩
  | other _ hp hv _ e ih => exact ⟨_, .push ih.choose_spec hp hv e⟩
  | remove _ hk e ih => exact ⟨_, .remove ih.choose_spec hk e⟩

theorem BoardRecords.inv {dbg : Bool} {n : Dim} {r : Nat} {b : Goban} (h : BoardRecords dbg n r b) : Inv n b :=
  h.board.choose_spec.inv.1

open Classical in
theorem push_room {dbg : Bool} {n : Dim} {b : Goban} (hI : Inv n b) {p : Coord} {c : Color} (hp : OnBoard n p)
    (he : b.getColor p = .ok none) :
    (∃ b', b.push dbg p c = .ok b' ∧ (b.chains.length < 65535 ∨ Joins n b.view p c) ∧
      b'.chains.length = b.chains.length + if Joins n b.view p c then 0 else 1) ∨
    (b.push dbg p c = panic ∧ b.chains.length = 65535 ∧ ¬ Joins n b.view p c) := by
  rw [push_eq hI.size hp]
  rcases push_exact (dbg := dbg) (c := c) hI hp ((getColor_none hI hp).1 he) with ⟨f, e, _, h1, h2⟩ | ⟨e, h1⟩
  · exact Or.inl ⟨f.goban, by rw [e]; rfl, h1, h2⟩
  · exact Or.inr ⟨by rw [e]; rfl, h1⟩

theorem BoardRecords.length {dbg : Bool} {n : Dim} {r : Nat} {b : Goban} (h : BoardRecords dbg n r b) : b.chains.length = r := by
  induction h with
  | new hf e => rw [(new_inv hf e).2.1]; rfl
  | join h hp hv hj e ih =>
    rcases push_room (dbg := dbg) h.inv hp hv with ⟨g1, e1, _, h1⟩ | ⟨e1, _⟩
    · rw [e] at e1; cases e1; rw [h1, if_pos hj, ih]; rfl
    · rw [e] at e1; cases e1
  | other h hp hv hj e ih =>
    rcases push_room (dbg := dbg) h.inv hp hv with ⟨g1, e1, _, h1⟩ | ⟨e1, _⟩
    · rw [e] at e1; cases e1; rw [h1, if_neg hj, ih]
    · rw [e] at e1; cases e1
  | remove h hk e ih => rw [removeChain_clen e, ih]

/-- **C87** for a board: `push` on an empty point panics exactly when 65,535 stones that did not join exactly one group of their
colour have been pushed in the life of the board, removed ones included, and this one is another. -/
theorem C87_push {dbg : Bool} {n : Dim} {r : Nat} {b : Goban} (h : BoardRecords dbg n r b) {p : Coord} {c : Color}
    (hp : OnBoard n p) (he : b.getColor p = .ok none) :
    r ≤ 65535 ∧ (b.push dbg p c = panic ↔ r = 65535 ∧ ¬ Joins n b.view p c) ∧
    ((∃ b', b.push dbg p c = .ok b') ↔ r < 65535 ∨ Joins n b.view p c) := by
  have hm := h.inv.rep.few
  rw [h.length] at hm
  have hl := h.length
  rcases push_room (dbg := dbg) (c := c) h.inv hp he with ⟨b', e, h1, _⟩ | ⟨e, h1, h2⟩
  · rw [hl] at h1
    refine ⟨by omega, ⟨fun h' => (by rw [e] at h'; cases h'), fun h' => ?_⟩, ⟨fun _ => h1, fun _ => ⟨b', e⟩⟩⟩
    rcases h1 with h1 | h1
    · omega
    · exact absurd h1 h'.2
  · rw [hl] at h1
    refine ⟨by omega, ⟨fun _ => ⟨h1, h2⟩, fun _ => e⟩, ⟨fun ⟨_, h'⟩ => (by rw [e] at h'; cases h'), fun h' => ?_⟩⟩
    rcases h' with h' | h'
    · omega
    · exact absurd h' h2

theorem one_point_not_joins {pos : Spec.Pos} {c : Color} : ¬ Joins 1 pos (0, 0) c := by
  rintro ⟨⟨⟨a, b⟩, ⟨ha, hb⟩, hadj, _⟩, _⟩
  have ha : a < 1 := ha
  have hb : b < 1 := hb
  unfold Adj at hadj
  simp only at hadj
  omega

/-- Non-vacuity of `C87_push`: a board of one point on which a stone is put and removed time and again comes to every number up to
65,535, and then the next `push` panics although the board is empty. -/
theorem C87_push_reached (dbg : Bool) : ∃ b, BoardRecords dbg 1 65535 b ∧ b.getColor (0, 0) = .ok none ∧
    ∀ c, b.push dbg (0, 0) c = panic := by
  have hon : OnBoard 1 (0, 0) := by decide
  have key : ∀ r, r ≤ 65535 → ∃ b, BoardRecords dbg 1 r b ∧ b.getColor (0, 0) = .ok none := by
    intro r
    induction r with
    | zero =>
      intro _
      obtain ⟨b, e, h⟩ := okAnd_iff.1 (show okAnd (Goban.new (1, 1)) (fun b => decide (b.getColor (0, 0) = .ok none)) = true by
        decide +kernel)
      exact ⟨b, .new (Nat.dvd_refl _) e, of_decide_eq_true h⟩
    | succ r ih =>
      intro hr
      obtain ⟨b, h, he⟩ := ih (by omega)
      obtain ⟨b1, e1⟩ := (C87_push h (c := .black) hon he).2.2.2 (Or.inl (by omega))
      have h1 := BoardRecords.other h hon he one_point_not_joins e1
      rcases h.inv.push_total (dbg := dbg) (c := .black) hon ((getColor_none h.inv hon).1 he) with ⟨b2, e2, _, _, hcol⟩ | ⟨e2, _⟩
      · rw [e1] at e2; cases e2
        have hc := hcol (twoTo1dim (Dim.sz 1) (0, 0))
        rw [if_pos rfl] at hc
        cases hb : b1.bd (twoTo1dim (Dim.sz 1) (0, 0)) with
        | none => rw [col_none hb] at hc; cases hc
        | some k =>
          obtain ⟨grp, hk⟩ := h1.inv.rep.live _ _ hb
          obtain ⟨b3, e3, h3⟩ := remove_spec (dbg := dbg) h1.inv hk
          refine ⟨b3, .remove h1 ⟨grp, live_ch.2 hk⟩ e3, ?_⟩
          rw [getColor_none h3.inv hon, h3.inv.view_none_iff hon, h3.bd, if_pos hb]
      · rw [e1] at e2; cases e2
  obtain ⟨b, h, he⟩ := key 65535 (Nat.le_refl _)
  exact ⟨b, h, he, fun c => (C87_push h hon he).2.1.2 ⟨rfl, one_point_not_joins⟩⟩

/-- Games reached from `g0` with the public calls (`play` on empty points of the board; an accepted `try_play` is a `play`),
and the number of stones put that did not join exactly one group of their colour, `r0` of them before the start. -/
inductive Records (dbg : Bool) (n : Dim) (g0 : Game) (r0 : Nat) : Nat → Game → Prop
  | start : Records dbg n g0 r0 r0 g0
  | join {r g x y g'} : Records dbg n g0 r0 r g → OnBoard n (x, y) → g.goban.getColor (x, y) = .ok none →
      Joins n g.goban.view (x, y) g.turn → g.play dbg (.play x y) = .ok g' → Records dbg n g0 r0 r g'
  | other {r g x y g'} : Records dbg n g0 r0 r g → OnBoard n (x, y) → g.goban.getColor (x, y) = .ok none →
      ¬ Joins n g.goban.view (x, y) g.turn → g.play dbg (.play x y) = .ok g' → Records dbg n g0 r0 (r + 1) g'
  | pass {r g g'} : Records dbg n g0 r0 r g → g.play dbg .pass = .ok g' → Records dbg n g0 r0 r g'
  | resign {r g c g'} : Records dbg n g0 r0 r g → g.play dbg (.resign c) = .ok g' → Records dbg n g0 r0 r g'
  | resume {r g} : Records dbg n g0 r0 r g → Records dbg n g0 r0 r g.resume
  | setKomi {r g k} : Records dbg n g0 r0 r g → Records dbg n g0 r0 r (g.setKomi k)

variable {dbg : Bool} {n : Dim} {m0 r0 r : Nat} {g0 g : Game}

/-- **C87**, the start: every new game, with or without handicap and set-up stones, is on a board with a definite number of such
stones, none if no stones were put. -/
theorem C87_start (hf : Fresh dbg n m0 g0) : ∃ r0, r0 ≤ m0 ∧ BoardRecords dbg n r0 g0.goban ∧
    ∀ r, BoardRecords dbg n r g0.goban → r = r0 := by
  have key : ∀ {m b}, Board dbg n m b → ∃ r, r ≤ m ∧ BoardRecords dbg n r b := by
    intro m b h
    induction h with
    | new hf e => exact ⟨0, Nat.le_refl _, .new hf e⟩
    | @push m g g' p c _ hp he e ih =>
      obtain ⟨r, hr, ih⟩ := ih
      by_cases hj : Joins n g.view p c
      · exact ⟨r, by omega, .join ih hp he hj e⟩
      · exact ⟨r + 1, by omega, .other ih hp he hj e⟩
    | remove _ hk e ih =>
      obtain ⟨r, hr, ih⟩ := ih
      exact ⟨r, hr, .remove ih hk e⟩
  obtain ⟨r, hr, h⟩ := key hf.spec.board
  exact ⟨r, hr, h, fun r' h' => by rw [← h'.length, h.length]⟩

theorem Records.reach (hf : Fresh dbg n m0 g0) (h : Records dbg n g0 r0 r g) : ∃ m, Reach dbg n m g := by
  induction h with
  | start => exact ⟨_, .fresh hf⟩
  | join _ hp hv _ e ih => exact ⟨_, .play ih.choose_spec hp hv e⟩
  | other _ hp hv _ e ih => exact ⟨_, .play ih.choose_spec hp hv e⟩
  | pass _ e ih => exact ⟨_, .pass ih.choose_spec e⟩
  | resign _ e ih => exact ⟨_, .resign ih.choose_spec e⟩
  | resume _ ih => exact ⟨_, .resume ih.choose_spec⟩
  | setKomi _ ih => exact ⟨_, .setKomi ih.choose_spec⟩

theorem Records.inv (hf : Fresh dbg n m0 g0) (h : Records dbg n g0 r0 r g) : Inv n g.goban ∧ ∀ b ∈ g.history, Inv n b := by
  obtain ⟨m, hr⟩ := h.reach hf
  refine ⟨hr.inv, fun b hb => ?_⟩
  obtain ⟨_, h1⟩ := hr.spec.history b hb
  exact h1.2.inv.1

open Classical in
theorem play_room (hI : Inv n g.goban) (hh : ∀ b ∈ g.history, Inv n b) {x y : Nat} (hp : OnBoard n (x, y)) (he : g.goban.getColor (x, y) = .ok none) :
    (∃ g', g.play dbg (.play x y) = .ok g' ∧ ¬ g.Stuck n (x, y) ∧
      g'.goban.chains.length = g.goban.chains.length + if Joins n g.goban.view (x, y) g.turn then 0 else 1) ∨
    (g.play dbg (.play x y) = panic ∧ g.Stuck n (x, y)) := by
  rw [play_eq]
  obtain ⟨l, e0, _⟩ := historyInsert_ok hI g.history hh
  rw [e0, ok_bind]
  rcases move_exact (dbg := dbg) (sa := !g.rule.flagIllegal.suicide) (c := g.turn) hI hp ((getColor_none hI hp).1 he) with
    ⟨s, e, hs, hr, hl⟩ | ⟨e, hl, hJ⟩
  · refine Or.inl ⟨_, by rw [e]; rfl, fun hst => ?_, hl⟩
    rcases hr with h | h
    · have := hst.1; unfold Game.Full at this; omega
    · exact hst.2 h
  · exact Or.inr ⟨by rw [e]; rfl, hl, hJ⟩

theorem Records.length (hf : Fresh dbg n m0 g0) (hb : BoardRecords dbg n r0 g0.goban) (h : Records dbg n g0 r0 r g) : g.goban.chains.length = r := by
  induction h with
  | start => exact hb.length
  | join h hp hv hj e ih =>
    rcases play_room (dbg := dbg) (h.inv hf).1 (h.inv hf).2 hp hv with ⟨g1, e1, _, h1⟩ | ⟨e1, _⟩
    · rw [e] at e1; cases e1; rw [h1, if_pos hj, ih]; rfl
    · rw [e] at e1; cases e1
  | other h hp hv hj e ih =>
    rcases play_room (dbg := dbg) (h.inv hf).1 (h.inv hf).2 hp hv with ⟨g1, e1, _, h1⟩ | ⟨e1, _⟩
    · rw [e] at e1; cases e1; rw [h1, if_neg hj, ih]
    · rw [e] at e1; cases e1
  | pass h e ih =>
    unfold Game.play at e
    obtain ⟨_, _, e⟩ := bind_eq_ok e
    cases e; exact ih
  | resign h e ih => cases e; exact ih
  | resume h ih => exact ih
  | setKomi h ih => exact ih

theorem Records.stuck (hf : Fresh dbg n m0 g0) (hb : BoardRecords dbg n r0 g0.goban) (h : Records dbg n g0 r0 r g) {p : Coord} :
    g.Stuck n p ↔ r = 65535 ∧ ¬ Joins n g.goban.view p g.turn := by
  unfold Game.Stuck Game.Full
  rw [h.length hf hb]

/-- **C87**: a game records at most 65,535 stones that did not join exactly one group of their colour. -/
theorem C87_at_most (hf : Fresh dbg n m0 g0) (hb : BoardRecords dbg n r0 g0.goban) (h : Records dbg n g0 r0 r g) : r ≤ 65535 := by
  have := (h.inv hf).1.rep.few
  rw [h.length hf hb] at this
  omega

/-- **C87** for `play` on an empty point: it panics exactly when 65,535 such stones have been put and this one is another, and
returns otherwise. -/
theorem C87_play (hf : Fresh dbg n m0 g0) (hb : BoardRecords dbg n r0 g0.goban) (h : Records dbg n g0 r0 r g) {x y : Nat} (hp : OnBoard n (x, y))
    (he : g.goban.getColor (x, y) = .ok none) :
    (g.play dbg (.play x y) = panic ↔ r = 65535 ∧ ¬ Joins n g.goban.view (x, y) g.turn) ∧
    ((∃ g', g.play dbg (.play x y) = .ok g') ↔ r < 65535 ∨ Joins n g.goban.view (x, y) g.turn) := by
  have hm := C87_at_most hf hb h
  have hs := h.stuck hf hb (p := (x, y))
  rcases play_room (dbg := dbg) (h.inv hf).1 (h.inv hf).2 hp he with ⟨g1, e1, h1, _⟩ | ⟨e1, h1⟩
  · refine ⟨⟨fun h' => (by rw [e1] at h'; cases h'), fun h' => absurd (hs.2 h') h1⟩, ⟨fun _ => ?_, fun _ => ⟨_, e1⟩⟩⟩
    by_cases hj : Joins n g.goban.view (x, y) g.turn
    · exact Or.inr hj
    · refine Or.inl ?_
      rcases Nat.lt_or_ge r 65535 with h2 | h2
      · exact h2
      · exact absurd (hs.2 ⟨by omega, hj⟩) h1
  · refine ⟨⟨fun _ => hs.1 h1, fun _ => e1⟩, ⟨fun ⟨g', h'⟩ => (by rw [e1] at h'; cases h'), fun h' => ?_⟩⟩
    have := hs.1 h1
    rcases h' with h' | h'
    · omega
    · exact absurd h' this.2

/-- **C87** for `play_for_verification` on an empty point. -/
theorem C87_preview (hf : Fresh dbg n m0 g0) (hb : BoardRecords dbg n r0 g0.goban) (h : Records dbg n g0 r0 r g) {p : Coord} (hp : OnBoard n p)
    (he : g.goban.getColor p = .ok none) :
    (g.playForVerification dbg p = panic ↔ r = 65535 ∧ ¬ Joins n g.goban.view p g.turn) ∧
    ((∃ b, g.playForVerification dbg p = .ok b) ∨ g.playForVerification dbg p = panic) := by
  have hs := h.stuck hf hb (p := p)
  rcases playForVerification_stuck (dbg := dbg) (h.inv hf).1 hp he with ⟨b, e, _, h1⟩ | ⟨e, h1⟩
  · exact ⟨⟨fun h' => (by rw [e] at h'; cases h'), fun h' => absurd (hs.2 h') h1⟩, Or.inl ⟨b, e⟩⟩
  · exact ⟨⟨fun _ => hs.1 h1, fun _ => e⟩, Or.inr e⟩

/-- **C87** for `check_point_by` on any point of the board, under any flags: it panics exactly when 65,535 such stones have been
played, this would be another, super-ko is to be tested, three positions are recorded, the move would capture, and nothing
else forbids it. -/
theorem C87_check_point_by (hf : Fresh dbg n m0 g0) (hb : BoardRecords dbg n r0 g0.goban) (h : Records dbg n g0 r0 r g) {p : Coord} (hp : OnBoard n p) (f : IllegalRules) :
    (g.checkPointBy dbg p f = panic ↔ r = 65535 ∧ ¬ Joins n g.goban.view p g.turn ∧ f.superko = true ∧ 2 < g.history.length ∧
      g.willCapture dbg p = .ok true ∧ g.checkPointBy dbg p { f with superko := false } = .ok none) ∧
    ((∃ o, g.checkPointBy dbg p f = .ok o) ∨ g.checkPointBy dbg p f = panic) := by
  obtain ⟨h1, h2, _⟩ := checkPointBy_stuck (dbg := dbg) (h.inv hf).1 (h.inv hf).2 hp f
  refine ⟨?_, h1⟩
  rw [h2, h.stuck hf hb, and_assoc]

theorem tryPlay_room (hI : Inv n g.goban) (hh : ∀ b ∈ g.history, Inv n b) {x y : Nat} (hp : OnBoard n (x, y)) :
    (g.tryPlay dbg (.play x y) = panic ↔ g.Stuck n (x, y) ∧ g.passes ≠ 2 ∧
      g.checkPointBy dbg (x, y) { g.rule.flagIllegal with superko := false } = .ok none) ∧
    ((∃ o, g.tryPlay dbg (.play x y) = .ok o) ∨ g.tryPlay dbg (.play x y) = panic) := by
  unfold Game.tryPlay
  by_cases h2 : g.passes = 2
  · rw [if_pos h2]
    exact ⟨⟨fun h => (by cases h), fun h => absurd h2 h.2.1⟩, Or.inl ⟨_, rfl⟩⟩
  rw [if_neg h2]
  dsimp only
  obtain ⟨c1, c2, c3⟩ := checkPointBy_stuck (dbg := dbg) hI hh hp g.rule.flagIllegal
  obtain ⟨o, s1, s2, s3⟩ := checkPointBy_split (dbg := dbg) hI hp g.rule.flagIllegal
  unfold Game.checkPoint
  rw [hI.getColor_view hp, ok_bind]
  cases hv : g.goban.view (x, y) with
  | some c =>
    refine ⟨⟨fun h => (by cases h), fun h => ?_⟩, Or.inl ⟨_, rfl⟩⟩
    rw [h.2.2] at s1
    cases s1
    have := s3 rfl
    rw [hI.getColor_view hp, hv] at this
    cases this
  | none =>
    have he : g.goban.getColor (x, y) = .ok none := by rw [hI.getColor_view hp, hv]
    simp only [ne_eq, not_true_eq_false, if_false]
    rcases c1 with ⟨o', e⟩ | e
    · rw [e, ok_bind]
      cases o' with
      | some err =>
        refine ⟨⟨fun h => (by cases h), fun h => ?_⟩, Or.inl ⟨_, rfl⟩⟩
        have := c3 h.1 _ e
        rw [h.2.2] at this
        cases this
      | none =>
        dsimp only
        rcases play_room (dbg := dbg) hI hh hp he with ⟨g1, e1, h1, _⟩ | ⟨e1, h1⟩
        · rw [e1]
          exact ⟨⟨fun h => (by cases h), fun h => absurd h.1 h1⟩, Or.inl ⟨_, rfl⟩⟩
        · rw [e1]
          exact ⟨⟨fun _ => ⟨h1, h2, c3 h1 _ e⟩, fun _ => rfl⟩, Or.inr rfl⟩
    · have := c2.1 e
      rw [e]
      exact ⟨⟨fun _ => ⟨this.1, h2, this.2.2.2.2⟩, fun _ => rfl⟩, Or.inr rfl⟩

/-- **C87** for `try_play` on any point of the board: it panics exactly when 65,535 such stones have been put, this would be
another, the game is not over by passes and nothing but (perhaps) super-ko forbids it. -/
theorem C87_try_play (hf : Fresh dbg n m0 g0) (hb : BoardRecords dbg n r0 g0.goban) (h : Records dbg n g0 r0 r g) {x y : Nat} (hp : OnBoard n (x, y)) :
    (g.tryPlay dbg (.play x y) = panic ↔ r = 65535 ∧ ¬ Joins n g.goban.view (x, y) g.turn ∧ g.passes ≠ 2 ∧
      g.checkPointBy dbg (x, y) { g.rule.flagIllegal with superko := false } = .ok none) ∧
    ((∃ o, g.tryPlay dbg (.play x y) = .ok o) ∨ g.tryPlay dbg (.play x y) = panic) := by
  obtain ⟨h1, h2⟩ := tryPlay_room (dbg := dbg) (h.inv hf).1 (h.inv hf).2 hp
  refine ⟨?_, h2⟩
  rw [h1, h.stuck hf hb, and_assoc]

theorem mapM_panics {α β} {f : α → M β} : ∀ {l : List α}, (∀ a ∈ l, (∃ b, f a = .ok b) ∨ f a = panic) →
    ((∃ r, l.mapM f = .ok r) ∨ l.mapM f = panic) ∧ (l.mapM f = panic ↔ ∃ a ∈ l, f a = panic)
  | [], _ => ⟨Or.inl ⟨[], rfl⟩, ⟨fun h => (by cases h), fun ⟨_, h, _⟩ => (by cases h)⟩⟩
  | a :: l, h => by
    obtain ⟨h1, h2⟩ := mapM_panics (l := l) (fun x hx => h x (by simp [hx]))
    rw [List.mapM_cons]
    rcases h a (by simp) with ⟨b, e⟩ | e
    · rw [e, ok_bind]
      rcases h1 with ⟨r, e1⟩ | e1
      · rw [e1]
        refine ⟨Or.inl ⟨_, rfl⟩, ⟨fun h => (by cases h), fun ⟨x, hx, ex⟩ => ?_⟩⟩
        rcases List.mem_cons.1 hx with rfl | hx
        · rw [e] at ex; cases ex
        · have := h2.2 ⟨x, hx, ex⟩
          rw [e1] at this; cases this
      · rw [e1]
        obtain ⟨x, hx, ex⟩ := h2.1 e1
        exact ⟨Or.inr rfl, ⟨fun _ => ⟨x, by simp [hx], ex⟩, fun _ => rfl⟩⟩
    · rw [e]
      exact ⟨Or.inr rfl, ⟨fun _ => ⟨a, by simp, e⟩, fun _ => rfl⟩⟩

/-- **C87** for `legals_by`: it panics exactly when `check_point_by` panics on some point it goes through (on a square board: on some
point), that is, when the conditions of `C87_check_point_by` hold there. -/
theorem C87_legals_by (hf : Fresh dbg n m0 g0) (hb : BoardRecords dbg n r0 g0.goban) (h : Records dbg n g0 r0 r g) (f : IllegalRules) :
    (g.legalsBy dbg f = panic ↔ ∃ p, OnBoard n p ∧ p.1 < n.w ∧ r = 65535 ∧ ¬ Joins n g.goban.view p g.turn ∧ f.superko = true ∧
      2 < g.history.length ∧ g.willCapture dbg p = .ok true ∧ g.checkPointBy dbg p { f with superko := false } = .ok none) ∧
    ((∃ l, g.legalsBy dbg f = .ok l) ∨ g.legalsBy dbg f = panic) := by
  have hI := (h.inv hf).1
  obtain ⟨m', hr⟩ := h.reach hf
  have key : ∀ p, OnBoard n p → _ := fun p hp => C87_check_point_by hf hb h hp f
  obtain ⟨L, eL, _⟩ := getEmptyCoords_any hI
  have eP : g.pseudoLegals = .ok L := eL
  obtain ⟨hm1, hm2⟩ := pseudoLegals_mem hr eP
  unfold Game.legalsBy
  rw [eP, ok_bind]
  obtain ⟨h1, h2⟩ := mapM_panics (l := L)
    (f := fun c => do let e ← g.checkPointBy dbg c f; .ok (if e.isNone then some c else none)) (by
    intro p hp
    rcases (key p (hm1 p hp).1).2 with ⟨o, e⟩ | e
    · rw [e]; exact Or.inl ⟨_, rfl⟩
    · rw [e]; exact Or.inr rfl)
  have bindp : ∀ p, (do let e ← g.checkPointBy dbg p f; .ok (if e.isNone then some p else none) : M (Option Coord)) = panic ↔
      g.checkPointBy dbg p f = panic := by
    intro p
    cases g.checkPointBy dbg p f with
    | ok o => exact ⟨fun h => (by cases h), fun h => (by cases h)⟩
    | error e => exact ⟨fun h => (by cases h; rfl), fun h => (by cases h; rfl)⟩
  have h3 : (∃ p ∈ L,
      (do let e ← g.checkPointBy dbg p f; .ok (if e.isNone then some p else none) : M (Option Coord)) = panic) ↔
      ∃ p, OnBoard n p ∧ p.1 < n.w ∧ g.checkPointBy dbg p f = panic := by
    constructor
    · rintro ⟨p, hp, e⟩
      exact ⟨p, (hm1 p hp).1, (hm1 p hp).2, (bindp p).1 e⟩
    · rintro ⟨p, hp, hw, e⟩
      refine ⟨p, hm2 p hp hw ?_, (bindp p).2 e⟩
      obtain ⟨o, s1, s2, s3⟩ := checkPointBy_split (dbg := dbg) hI hp f
      have := ((key p hp).1.1 e).2.2.2.2.2
      rw [this] at s1
      cases s1
      exact s3 rfl
  have h4 : (∃ p, OnBoard n p ∧ p.1 < n.w ∧ g.checkPointBy dbg p f = panic) ↔ ∃ p, OnBoard n p ∧ p.1 < n.w ∧ r = 65535 ∧
      ¬ Joins n g.goban.view p g.turn ∧ f.superko = true ∧ 2 < g.history.length ∧ g.willCapture dbg p = .ok true ∧
      g.checkPointBy dbg p { f with superko := false } = .ok none :=
    exists_congr (fun p => and_congr_right (fun hp => and_congr_right (fun _ => (key p hp).1)))
  rw [← h4, ← h3, ← h2]
  rcases h1 with ⟨l, e⟩ | e
  · rw [e]; exact ⟨⟨fun h => (by cases h), fun h => (by cases h)⟩, Or.inl ⟨_, rfl⟩⟩
  · rw [e]; exact ⟨⟨fun _ => rfl, fun _ => rfl⟩, Or.inr rfl⟩

theorem Records.passes (hf : Fresh dbg n m0 g0) (h : Records dbg n g0 r0 r g) : g.passes ≤ 2 := by
  induction h with
  | start => rw [hf.spec.passes]; decide
  | join h hp hv hj e ih =>
    rw [play_eq] at e
    obtain ⟨_, _, e⟩ := bind_eq_ok e
    obtain ⟨_, _, e⟩ := bind_eq_ok e
    cases e; exact Nat.zero_le _
  | other h hp hv hj e ih =>
    rw [play_eq] at e
    obtain ⟨_, _, e⟩ := bind_eq_ok e
    obtain ⟨_, _, e⟩ := bind_eq_ok e
    cases e; exact Nat.zero_le _
  | @pass r g g' h e ih =>
    unfold Game.play at e
    obtain ⟨_, e1, e⟩ := bind_eq_ok e
    unfold assertM at e1
    split at e1
    · rename_i hlt
      rw [decide_eq_true_eq] at hlt
      cases e; exact hlt
    · cases e1
  | resign h e ih => cases e; exact ih
  | resume h ih => exact Nat.zero_le _
  | setKomi h ih => exact ih

theorem Records.call (h : Records dbg n g0 r0 r g) {c : GOp} (hc : c.OnBoard n) {o : Option PlayError × Game}
    (e : g.call dbg c = .ok o) : ∃ r', Records dbg n g0 r0 r' o.2 := by
  cases c with
  | resume => cases e; exact ⟨r, h.resume⟩
  | setKomi k => cases e; exact ⟨r, h.setKomi⟩
  | try_ mv =>
    change g.tryPlay dbg mv = .ok o at e
    unfold Game.tryPlay at e
    split at e
    · cases e; exact ⟨r, h⟩
    cases mv with
    | pass =>
      obtain ⟨g1, e1, e⟩ := bind_eq_ok e
      cases e; exact ⟨r, h.pass e1⟩
    | resign c =>
      obtain ⟨g1, e1, e⟩ := bind_eq_ok e
      cases e; exact ⟨r, h.resign e1⟩
    | play x y =>
      dsimp only at e
      obtain ⟨o1, e1, e⟩ := bind_eq_ok e
      split at e
      · cases e; exact ⟨r, h⟩
      rename_i ho
      obtain ⟨o2, e2, e⟩ := bind_eq_ok e
      cases o2 with
      | some x => cases e; exact ⟨r, h⟩
      | none =>
        obtain ⟨g1, e3, e⟩ := bind_eq_ok e
        cases e
        rw [Classical.not_not] at ho
        rw [ho] at e1
        by_cases hj : Joins n g.goban.view (x, y) g.turn
        · exact ⟨r, h.join hc e1 hj e3⟩
        · exact ⟨r + 1, h.other hc e1 hj e3⟩

theorem call_panic (hf : Fresh dbg n m0 g0) (hb : BoardRecords dbg n r0 g0.goban) (h : Records dbg n g0 r0 r g) {c : GOp} (hc : c.OnBoard n) :
    (∃ o, g.call dbg c = .ok o) ∨ (g.call dbg c = panic ∧ ∃ x y, c = .try_ (.play x y)) := by
  cases c with
  | resume => exact Or.inl ⟨_, rfl⟩
  | setKomi k => exact Or.inl ⟨_, rfl⟩
  | try_ mv =>
    cases mv with
    | play x y =>
      rcases (C87_try_play hf hb h (x := x) (y := y) hc).2 with h1 | h1
      · exact Or.inl h1
      · exact Or.inr ⟨h1, x, y, rfl⟩
    | pass =>
      refine Or.inl ?_
      change ∃ o, g.tryPlay dbg .pass = .ok o
      unfold Game.tryPlay
      split
      · exact ⟨_, rfl⟩
      · rename_i h2
        have := h.passes hf
        unfold Game.play assertM
        rw [if_pos (by rw [decide_eq_true_eq]; omega)]
        exact ⟨_, rfl⟩
    | resign c =>
      refine Or.inl ?_
      change ∃ o, g.tryPlay dbg (.resign c) = .ok o
      unfold Game.tryPlay
      split
      · exact ⟨_, rfl⟩
      · exact ⟨_, rfl⟩

theorem run_room (hf : Fresh dbg n m0 g0) (hb : BoardRecords dbg n r0 g0.goban) : ∀ {cs : List GOp} {r : Nat} {g : Game}, Records dbg n g0 r0 r g → (∀ c ∈ cs, c.OnBoard n) →
    (∃ o r', g.run dbg cs = .ok o ∧ Records dbg n g0 r0 r' o.2) ∨
    (g.run dbg cs = panic ∧ ∃ a x y b es g', cs = a ++ .try_ (.play x y) :: b ∧ g.run dbg a = .ok (es, g') ∧
      (∃ r', Records dbg n g0 r0 r' g') ∧ g'.tryPlay dbg (.play x y) = panic)
  | [], r, g, h, _ => Or.inl ⟨_, r, rfl, h⟩
  | c :: cs, r, g, h, hcs => by
    rw [run_cons_eq]
    rcases call_panic hf hb h (hcs c (by simp)) with ⟨o, e⟩ | ⟨e, x, y, rfl⟩
    · obtain ⟨r1, h1⟩ := h.call (hcs c (by simp)) e
      rw [e, ok_bind]
      rcases run_room hf hb (cs := cs) h1 (fun c hc => hcs c (by simp [hc])) with ⟨o2, r2, e2, h2⟩ | ⟨e2, a, x, y, b, es, g', rfl, ea, h2, h3⟩
      · rw [e2]; exact Or.inl ⟨_, r2, rfl, h2⟩
      · rw [e2]
        refine Or.inr ⟨rfl, c :: a, x, y, b, o.1 :: es, g', rfl, ?_, h2, h3⟩
        rw [run_cons_eq, e, ok_bind, ea]
        rfl
    · rw [e]
      exact Or.inr ⟨rfl, [], x, y, cs, [], g, rfl, rfl, ⟨r, h⟩, e⟩

/-- **C87** for whole games, however long: a sequence of calls from any start panics exactly when it comes to a `try_play` of
a stone that would not join exactly one group of its colour, 65,535 such stones having been put before, the game not
being over by passes and nothing but (perhaps) super-ko forbidding it. Otherwise every call returns. -/
theorem C87_run (hf : Fresh dbg n m0 g0) (hb : BoardRecords dbg n r0 g0.goban) {cs : List GOp} (hcs : ∀ c ∈ cs, c.OnBoard n) :
    ((∃ o, g0.run dbg cs = .ok o) ∨ g0.run dbg cs = panic) ∧
    (g0.run dbg cs = panic ↔ ∃ a x y b es g, cs = a ++ .try_ (.play x y) :: b ∧ g0.run dbg a = .ok (es, g) ∧
      Records dbg n g0 r0 65535 g ∧ ¬ Joins n g.goban.view (x, y) g.turn ∧ g.passes ≠ 2 ∧
      g.checkPointBy dbg (x, y) { g.rule.flagIllegal with superko := false } = .ok none) := by
  have hall := run_room (dbg := dbg) hf hb (cs := cs) .start hcs
  constructor
  · rcases hall with ⟨o, _, e, _⟩ | ⟨e, _⟩
    · exact Or.inl ⟨o, e⟩
    · exact Or.inr e
  constructor
  · intro hp
    rcases hall with ⟨o, _, e, _⟩ | ⟨_, a, x, y, b, es, g, h1, h2, ⟨r, h3⟩, h4⟩
    · rw [hp] at e; cases e
    · have hon : OnBoard n (x, y) := hcs (.try_ (.play x y)) (by rw [h1]; simp)
      obtain ⟨rfl, h5⟩ := (C87_try_play hf hb h3 hon).1.1 h4
      exact ⟨a, x, y, b, es, g, h1, h2, h3, h5⟩
  · rintro ⟨a, x, y, b, es, g, rfl, h2, h3, h5⟩
    have hon : OnBoard n (x, y) := hcs (.try_ (.play x y)) (by simp)
    have h4 := (C87_try_play hf hb h3 hon).1.2 ⟨rfl, h5⟩
    rw [run_append, h2, ok_bind, run_cons_eq]
    change (do
      let r' ← (do
        let r ← g.tryPlay dbg (.play x y)
        let rs ← r.2.run dbg b
        .ok (r.1 :: rs.1, rs.2))
      .ok (es ++ r'.1, r'.2)) = panic
    rw [h4]
    rfl

/-- Non-vacuity of C87, the limit: some game on the 2 × 2 board under the Japanese rule has played 65,535 such stones, and there is
a point where the next panics. -/
theorem C87_reached (dbg : Bool) : ∃ g0, Game.new (.custom 2 2) JAPANESE = .ok g0 ∧ Fresh dbg 2 0 g0 ∧
    ∃ g x y, OnBoard 2 (x, y) ∧ Records dbg 2 g0 0 65535 g ∧ g.goban.getColor (x, y) = .ok none ∧
      ¬ Joins 2 g.goban.view (x, y) g.turn ∧ g.tryPlay dbg (.play x y) = panic ∧ g.play dbg (.play x y) = panic := by
  obtain ⟨g0, hf, e0, cs, hcs, e⟩ := C27_false dbg
  obtain ⟨r0, hr0, hb, _⟩ := C87_start hf
  obtain rfl : r0 = 0 := by omega
  obtain ⟨a, x, y, b, es, g, h1, _, h3, h4, h5, h6⟩ := (C87_run hf hb hcs).2.1 e
  have hon : OnBoard 2 (x, y) := hcs (.try_ (.play x y)) (by rw [h1]; simp)
  obtain ⟨o, s1, _, s3⟩ := checkPointBy_split (dbg := dbg) (h3.inv hf).1 hon g.rule.flagIllegal
  rw [h6] at s1
  cases s1
  exact ⟨g0, e0, hf, g, x, y, hon, h3, s3 rfl, h4, (C87_try_play hf hb h3 hon).1.2 ⟨rfl, h4, h5, h6⟩,
    (C87_play hf hb h3 hon (s3 rfl)).1.2 ⟨rfl, h4⟩⟩

/-- Non-vacuity of C87, the count: on an empty 2 × 2 board Black's first stone counts, and the second, played next to it after
White's pass, does not. -/
example (dbg : Bool) : ∃ g0 g, Fresh dbg 2 0 g0 ∧ Records dbg 2 g0 0 1 g ∧ g.goban.getColor (0, 0) = .ok (some .black) ∧
    g.goban.getColor (0, 1) = .ok (some .black) := by
  have key : okAnd (do
      let g0 ← Game.new (.custom 2 2) JAPANESE
      let g1 ← g0.play dbg (.play 0 0)
      let g2 ← g1.play dbg .pass
      let g3 ← g2.play dbg (.play 0 1)
      .ok (g0, g1, g2, g3)) (fun r =>
        decide (r.1.goban.getColor (0, 0) = .ok none) && decide (r.1.goban.getColor (0, 1) = .ok none) &&
        decide (r.1.goban.getColor (1, 0) = .ok none) && decide (r.2.2.1.turn = .black) &&
        decide (r.2.2.1.goban.getColor (0, 0) = .ok (some .black)) && decide (r.2.2.1.goban.getColor (0, 1) = .ok none) &&
        decide (r.2.2.1.goban.getColor (1, 1) = .ok none) &&
        decide (r.2.2.2.goban.getColor (0, 0) = .ok (some .black)) &&
        decide (r.2.2.2.goban.getColor (0, 1) = .ok (some .black))) = true := by
    cases dbg <;> decide +kernel
  obtain ⟨r, e, h⟩ := okAnd_iff.1 key
  obtain ⟨g0, e0, e⟩ := bind_eq_ok e
  obtain ⟨g1, e1, e⟩ := bind_eq_ok e
  obtain ⟨g2, e2, e⟩ := bind_eq_ok e
  obtain ⟨g3, e3, e⟩ := bind_eq_ok e
  cases e
  simp only [Bool.and_eq_true, decide_eq_true_eq] at h
  obtain ⟨⟨⟨⟨⟨⟨⟨⟨h1, h2⟩, h3⟩, h4⟩, h5⟩, h6⟩, h7⟩, h8⟩, h9⟩ := h
  have hf : Fresh dbg 2 0 g0 := .new (Nat.dvd_refl _) rfl e0
  have nb : ∀ p : Coord, ∀ q, OnBoard 2 q → Adj p q → (p = (0, 0) → q = (0, 1) ∨ q = (1, 0)) ∧ (p = (0, 1) → q = (0, 0) ∨ q = (1, 1)) := by
    rintro p ⟨a, b⟩ ⟨ha, hb⟩ h
    have ha : a < 2 := ha
    have hb : b < 2 := hb
    constructor <;> (rintro rfl; unfold Adj at h; simp only [Prod.mk.injEq] at h ⊢; omega)
  have r1 : Records dbg 2 g0 0 1 g1 := by
    refine Records.other .start (by decide) h1 ?_ e1
    rintro ⟨⟨q, h1, h2', h3'⟩, _⟩
    rcases (nb _ q h1 h2').1 rfl with rfl | rfl
    · simp only [Goban.view, h2] at h3'; cases h3'
    · simp only [Goban.view, h3] at h3'; cases h3'
  refine ⟨g0, g3, hf, Records.join (r1.pass e2) (by decide) h6 ?_ e3, h8, h9⟩
  have only : ∀ q, OnBoard 2 q → Adj (0, 1) q → g2.goban.view q = some g2.turn → q = (0, 0) := by
    intro q hq ha hv
    rcases (nb _ q hq ha).2 rfl with rfl | rfl
    · rfl
    · simp only [Goban.view, h7] at hv; cases hv
  refine ⟨⟨(0, 0), by decide, by decide, by simp only [Goban.view, h5, h4]⟩, fun q r hq hr aq ar vq vr => ?_⟩
  rw [only q hq aq vq, only r hr ar vr]
  exact .refl _

end Model
