import Verif.Props.LongGame
import Verif.Props.Record
/-!
# Small boards without super-ko: C72

Where positions may come again, two kos taken in turn are enough for a game that runs out of group slots.
-/

namespace Model
open Spec (OnBoard Adj Linked HasLiberty NoDead place SameOn Pos Suicide State Call)

variable {dbg : Bool} {n : Dim} {m : Nat} {o : Option EndGame} {g : Game} {s : State}

/-- **C72**, rules without super-ko. On every board of width at least 4 (all squares from 4 × 4, for example) and under every rule that
does not forbid super-ko, whatever it says of ko, suicide and eyes, there is a game of `try_play` calls from the new game, all accepted, after
which the game is not over and an on-board `try_play` panics. -/
theorem C72_two_kos (dbg : Bool) (hfit : n.Fits) (hh : n.h ≤ 19) (hw : n.w ≤ 19) (hw4 : 4 ≤ n.w) (hh0 : 0 < n.h)
    (rule : Rule) (hsk : rule.flagIllegal.superko = false) :
    ∃ (g0 : Game) (ms : List Move) (es : List (Option PlayError)) (g : Game) (mv : Move),
      Game.new (.custom n.h n.w) rule = .ok g0 ∧ (∀ mv ∈ ms, Move.OnBoard n mv) ∧
      g0.run dbg (ms.map GOp.try_) = .ok (es, g) ∧ (∀ e ∈ es, e = none) ∧
      g.isOver = false ∧ Move.OnBoard n mv ∧ g.tryPlay dbg mv = panic := by
  have hsz : GobanSizes.toSize (.custom n.h n.w) = n.sz := by
    show (u8 n.h, u8 n.w) = _
    unfold u8 Dim.sz
    rw [Nat.mod_eq_of_lt (by omega), Nat.mod_eq_of_lt (by omega)]
  obtain ⟨_, hx⟩ | ⟨_, g0, e0, hb⟩ := C53_new_partial (.custom n.h n.w) rule (by show n.h < 256; omega) (by show n.w < 256; omega)
  · exact absurd ⟨hh, hw⟩ hx
  have h0 : Fresh dbg n 0 g0 := .new hfit hsz e0
  have hempty : ∀ p, OnBoard n p → g0.goban.view p = none := fun p hp =>
    (getColor_none h0.spec.board.inv.1 hp).1 (hb.empty p hp)
  have harea : n.area ≤ 361 := by
    have : n.h * n.w ≤ 19 * 19 := Nat.mul_le_mul hh hw
    exact this
  have hh4 : 4 ≤ n.h := Nat.le_trans hw4 (Nat.le_of_dvd hh0 hfit)
  have hf : FieldOn n ((n.w - 1) / 3) := ⟨by omega, by omega⟩
  obtain ⟨cs, g, s, _, hpl, hgr, hps⟩ := grow g0 h0 hempty harea _ _ rfl (koField_noDead hf (fun _ => false))
  obtain ⟨h1, ⟨es, e, hes⟩, k, hk, hs⟩ := hpl
  obtain ⟨ms, rfl, hms⟩ := Played.moves h1
  have hsteps : Steps dbg n g0 g := ⟨ms, es, hms, e, hes, by rw [hs.outcome, hgr.resigned]⟩
  have hrule : g.rule.flagIllegal.superko = false := by
    have h1 := (Sgf.run_rule e).1
    have h2 : g.rule.flagIllegal = g0.rule.flagIllegal := by rw [← h1]
    rw [h2, hb.rule]
    exact hsk
  -- two kos: in a row, or in a column
  obtain ⟨k1, hk1, hne⟩ : ∃ k1, KoOn n ((n.w - 1) / 3) k1 ∧ ((0, 0) : Nat × Nat) ≠ k1 := by
    by_cases h2 : 2 ≤ (n.w - 1) / 3
    · exact ⟨(0, 1), ⟨by show 2 * 0 < n.h; omega, by show 1 < _; omega⟩, by simp⟩
    · exact ⟨(1, 0), ⟨by show 2 * 1 < n.h; omega, by show 0 < _; omega⟩, by simp⟩
  have hk0 : KoOn n ((n.w - 1) / 3) (0, 0) := ⟨by show 2 * 0 < n.h; omega, by show 0 < _; omega⟩
  have hc : Crash dbg n g0 := by
    rcases Stage.forever (dbg := dbg) hf hk0 hk1 hne ⟨⟨k, hs⟩, hgr.pos, hps⟩ hrule (by
        intro b hb'
        have hO := koMove_onBoard (x := fun _ => false) hf hk0
        by_contra hne
        refine hgr.before b hb' _ hO hne ?_
        rw [hgr.pos _ hO]
        exact koField_move hk0.2) 65536 with hc | ⟨g', s', x', _, ⟨⟨m', hs'⟩, _, _⟩, hlen⟩
    · exact hc.after hsteps
    · have h1 := hs'.inv.rep.few
      omega
  obtain ⟨g', mv, ⟨ms', es', a1, a2, a3, a4⟩, b1, b2⟩ := hc
  exact ⟨g0, ms', es', g', mv, e0, a1, a2, a3,
    goes_on (.fresh h0 (fun p hp h => absurd (hempty p hp) h)) a1 a2 (a4.trans hb.goesOn.2) b2, b1, b2⟩

/-- For example on every square from 4 × 4 to 19 × 19 under the Japanese rule, which refuses ko and suicide. -/
theorem C72_japanese (dbg : Bool) (k : Nat) (h4 : 4 ≤ k) (hk : k ≤ 19) :
    ∃ (g0 : Game) (ms : List Move) (es : List (Option PlayError)) (g : Game) (mv : Move),
      Game.new (.custom k k) JAPANESE = .ok g0 ∧ (∀ mv ∈ ms, Move.OnBoard k mv) ∧
      g0.run dbg (ms.map GOp.try_) = .ok (es, g) ∧ (∀ e ∈ es, e = none) ∧
      g.isOver = false ∧ Move.OnBoard k mv ∧ g.tryPlay dbg mv = panic :=
  C72_two_kos (n := k) dbg (Nat.dvd_refl k) hk hk h4 (by show 0 < k; omega) JAPANESE rfl

end Model
