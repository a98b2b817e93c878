import Verif.Model.UnwindHandicap
import Verif.Props.OffTable
/-!
# C131 for several stones at once
-/

namespace Model
open Spec (OnBoard)

variable {dbg : Bool} {n : Dim}

theorem pushMany_toM (dbg : Bool) (c : Color) : ∀ (ps : List Coord) (b : Goban),
    U.toM (Goban.pushManyU dbg ps c) b = b.pushMany dbg ps c >>= fun b' => .ok ((), b')
  | [], _ => rfl
  | p :: ps, b => by
    unfold Goban.pushManyU Goban.pushMany
    rw [List.foldlM_cons, List.foldlM_cons, U.toM_bind, Goban.push_toM]
    cases b.push dbg p c with
    | error e => rfl
    | ok b1 =>
      simp only [ok_bind]
      exact pushMany_toM dbg c ps b1

/-- The calls that put several stones are those of the model: same answer, and the same board or game if they return. -/
theorem C131_same_setup (dbg : Bool) (ps : List Coord) :
    (∀ b c, U.toM (Goban.pushManyU dbg ps c) b = b.pushMany dbg ps c >>= fun b' => .ok ((), b')) ∧
    ∀ g, U.toM (Game.putHandicapU dbg ps) g = g.putHandicap dbg ps >>= fun g' => .ok ((), g') := by
  refine ⟨fun b c => pushMany_toM dbg c ps b, fun g => ?_⟩
  unfold Game.putHandicapU Game.putHandicap
  simp only [U.toM_bind, U.toM_st, Game.onGoban_toM, pushMany_toM, ok_bind, bind_assoc]

theorem pushMany_left {c : Color} {b' : Goban} {p : Coord} {qs : List Coord} : ∀ {ps : List Coord} {b : Goban},
    b.pushMany dbg ps c = .ok b' → b'.push dbg p c = panic →
      Goban.pushManyU dbg (ps ++ p :: qs) c b = .error .panic (U.after (Goban.pushU dbg p c) b')
  | [], b, e, hx => by
    have hb : b = b' := Except.ok.inj e
    subst hb
    have h := Goban.push_toM dbg p c b
    rw [hx] at h
    unfold Goban.pushManyU
    rw [List.nil_append, List.foldlM_cons]
    refine U.bind_error ?_
    unfold U.toM at h
    unfold U.after
    cases e1 : Goban.pushU dbg p c b with
    | ok _ s => rw [e1] at h; cases h
    | error x s =>
      rw [e1] at h
      cases h
      rfl
  | q :: ps, b, e, hx => by
    unfold Goban.pushMany at e
    rw [List.foldlM_cons] at e
    obtain ⟨b1, e1, e2⟩ := bind_eq_ok e
    have h : Goban.pushU dbg q c b = .ok () b1 := U.of_toM (by rw [Goban.push_toM, e1]; rfl)
    unfold Goban.pushManyU
    rw [List.cons_append, List.foldlM_cons, U.bind_ok h]
    exact pushMany_left e2 hx

/-- **C131** for `push_many`: the stones before the one that panics are on the board, and that one leaves what `push` leaves. -/
theorem C131_push_many {b b' : Goban} {c : Color} {ps qs : List Coord} {p : Coord} (e : b.pushMany dbg ps c = .ok b')
    (hx : b'.push dbg p c = panic) :
    b.pushMany dbg (ps ++ p :: qs) c = panic ∧
    Goban.pushManyU dbg (ps ++ p :: qs) c b = .error .panic (U.after (Goban.pushU dbg p c) b') := by
  refine ⟨?_, pushMany_left e hx⟩
  unfold Goban.pushMany at e ⊢
  rw [List.foldlM_append, e, ok_bind, List.foldlM_cons, hx]
  rfl

/-- **C131** for `put_handicap`: the handicap is the number of all stones asked for, the stones before the one that panics are on the board,
and the turn and everything else are as before. -/
theorem C131_put_handicap {g : Game} {b' : Goban} {ps qs : List Coord} {p : Coord} (e : g.goban.pushMany dbg ps .black = .ok b')
    (hx : b'.push dbg p .black = panic) :
    Game.putHandicapU dbg (ps ++ p :: qs) g = .error .panic
      { g with handicap := (ps ++ p :: qs).length, goban := U.after (Goban.pushU dbg p .black) b' } := by
  unfold Game.putHandicapU
  refine step_st (s' := { g with handicap := (ps ++ p :: qs).length }) rfl (U.bind_error ?_)
  unfold Game.onGoban
  dsimp only
  rw [(C131_push_many (qs := qs) e hx).2]

/-- The hypotheses of `C131_put_handicap` can be met. Three handicap stones on 9 × 9, the second at `(41, 0)`: the call panics, the first stone
is there, the handicap is three and Black is still to play. -/
theorem C131_handicap_reached (dbg : Bool) : ∃ g b', Game.new .nine CHINESE = .ok g ∧ g.turn = .black ∧
    g.goban.pushMany dbg [(2, 2)] .black = .ok b' ∧ b'.getColor (2, 2) = .ok (some .black) ∧ b'.push dbg (41, 0) .black = panic ∧
    Game.putHandicapU dbg [(2, 2), (41, 0), (6, 6)] g = .error .panic { g with handicap := 3, goban := b' } := by
  obtain ⟨g, eg, h⟩ := okAnd_iff.1 (show okAnd (Game.new .nine CHINESE) (fun g => decide (g.turn = .black) &&
      decide (g.goban.getColor (2, 2) = .ok none) &&
      okAnd (g.goban.push dbg (2, 2) .black) (fun b => decide (b.getColor (2, 2) = .ok (some .black)))) = true by
    cases dbg <;> decide +kernel)
  rw [Bool.and_eq_true, Bool.and_eq_true] at h
  obtain ⟨b', eb, hc⟩ := okAnd_iff.1 h.2
  have eg' := eg
  unfold Game.new at eg'
  obtain ⟨b0, e0, e1⟩ := bind_eq_ok eg'
  have hg : g.goban = b0 := by rw [← Except.ok.inj e1]
  have hB : Board dbg 9 1 b' := .push (.new (by decide) e0) (by decide) (hg ▸ of_decide_eq_true h.1.2) (hg ▸ eb)
  have hu := C132_unchanged (p := (41, 0)) (c := .black) hB (by decide) (.inr (.inl (by decide)))
  have hx : b'.push dbg (41, 0) .black = panic := by
    have := Goban.push_toM dbg (41, 0) .black b'
    unfold U.toM at this
    rw [hu] at this
    cases e : b'.push dbg (41, 0) .black with
    | ok b2 => rw [e] at this; cases this
    | error f => rw [e] at this; cases this; rfl
  have hm : g.goban.pushMany dbg [(2, 2)] .black = .ok b' := by
    unfold Goban.pushMany
    rw [List.foldlM_cons, eb]; rfl
  refine ⟨g, b', eg, of_decide_eq_true h.1.1, hm, of_decide_eq_true hc, hx, ?_⟩
  rw [show [((2, 2) : Coord), (41, 0), (6, 6)] = [(2, 2)] ++ (41, 0) :: [(6, 6)] from rfl, C131_put_handicap hm hx]
  unfold U.after
  rw [hu]
  rfl

end Model
