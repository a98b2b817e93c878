import Verif.Props.Anywhere
import Verif.Props.Hidden
import Verif.Props.Ko
import Verif.Props.Tables
import Verif.Proofs.AnySize
/-!
# `check_super_ko` and `check_point_by` outside the board, exactly: C97
-/

namespace Model
open Spec (OnBoard Adj Linked SameOn Pos Beside Overflows landsOn EyeFrom OneLiberty SuicideFrom NoDead)

variable {dbg : Bool} {n : Dim} {m : Nat} {g : Game} {x y : Nat}

theorem zkey_ne_zero {i : Nat} (h : i < 361) (c : Color) : zkey i (some c) ≠ 0 := by
  obtain ⟨v, e, hv⟩ := C48_defined h c
  rw [indexZobrist_ok h] at e
  rw [Except.ok.inj e]; exact hv

theorem _root_.Model.Inv.toWeak {b : Goban} (h : Inv n b) (h2 : 2 ≤ n.h) : Weak b := by
  have hg := h.good
  refine ⟨h.rep, h.hash, ?_, ?_, ?_, ?_⟩ <;> rw [h.size]
  · show n.h ≠ 0; omega
  · intro h0
    have h0 : n.w = 0 := h0
    have hf : n.w ∣ n.h := hg.fits
    rw [h0] at hf
    have := Nat.eq_zero_of_zero_dvd hf
    omega
  · exact hg.h19
  · exact hg.w19

/-- Comparing with a board that has a stone on a cell outside the board. -/
theorem beq_extra {a b v : Goban} {p : Nat} {c : Color} (ha : Inv n a) (hb : Inv n b) (hv : Weak v) (hs : v.size = n.sz)
    (hp : p < 361) (hx : ¬ Ix n p) (hc : ∀ i, v.col i = if i = p then some c else b.col i) : a.beq v = .ok false := by
  unfold Goban.beq
  by_cases hh : a.zobristHash = v.zobristHash
  · rw [if_neg (by rw [ha.size, hs]; simp [hh])]
    have hva : ∀ q, OnBoard n q → v.getColor q = .ok (b.view q) := by
      intro q hq
      have hi := twoTo1_lt ha.good hq
      unfold Goban.getColor
      rw [hs, hv.rep.getColorIdx (hi.lt361 ha.good), hc, if_neg (fun e' => hx (by rw [← e']; exact hi)), hb.view hq]
    have key : ∀ l : List Coord, (∀ q ∈ l, OnBoard n q) → ∃ r, a.beqFrom v l = .ok r ∧ (r = true ↔ ∀ q ∈ l, a.view q = b.view q) := by
      intro l
      induction l with
      | nil => intro _; exact ⟨true, rfl, by simp⟩
      | cons q l ih =>
        intro hl
        obtain ⟨r, e, hr⟩ := ih (fun z hz => hl z (by simp [hz]))
        have hq := hl q (by simp)
        unfold Goban.beqFrom
        rw [ha.getColor_view hq, ok_bind, hva q hq, ok_bind]
        by_cases h1 : a.view q = b.view q
        · rw [if_pos h1]
          exact ⟨r, e, by rw [hr]; simp [h1]⟩
        · rw [if_neg h1]
          exact ⟨false, rfl, by simp [h1]⟩
    rw [ha.size, allCoords_eq]
    obtain ⟨r, e, hr⟩ := key (Spec.points n) (fun p hp => mem_points.1 hp)
    rw [e]
    cases r with
    | false => rfl
    | true =>
      exfalso
      have hab : SameOn n a.view b.view := fun q hq => hr.1 rfl q (mem_points.2 hq)
      have h1 : hashFn b.col 361 = hashFn v.col 361 := by
        rw [← hv.hash, ← hh, ha.hash]
        exact hashFn_congr (fun i _ => (col_eq_of_view ha hb hab i).symm)
      have h2 := hashFn_update (f := b.col) (f' := v.col) (p := p) (fun i hi => by rw [hc, if_neg hi]) hp
      rw [← h1, hb.col_off hx, hc, if_pos rfl] at h2
      have h3 : zkey p none ^^^ zkey p (some c) = 0 := by
        have := congrArg (fun z => hashFn b.col 361 ^^^ z) h2
        simp only [← BitVec.xor_assoc, BitVec.xor_self, BitVec.zero_xor] at this
        exact this.symm
      rw [show zkey p none = 0#64 from rfl, BitVec.zero_xor] at h3
      exact zkey_ne_zero hp c h3
  · rw [if_pos (Or.inr hh)]

theorem contains_extra {b v : Goban} {p : Nat} {c : Color} (hb : Inv n b) (hv : Weak v) (hs : v.size = n.sz)
    (hp : p < 361) (hx : ¬ Ix n p) (hc : ∀ i, v.col i = if i = p then some c else b.col i) : ∀ (l : List Goban),
    (∀ a ∈ l, Inv n a) → historyContains l v = .ok false
  | [], _ => rfl
  | a :: l, h => by
    unfold historyContains
    rw [beq_extra (h a (by simp)) hb hv hs hp hx hc, ok_bind, if_neg (by simp)]
    exact contains_extra hb hv hs hp hx hc l (fun z hz => h z (by simp [hz]))

/-- The same when no stone is there: like comparing with the board itself. -/
theorem beq_same {a b v : Goban} (ha : Inv n a) (hb : Inv n b) (hv : Weak v) (hs : v.size = n.sz)
    (hc : ∀ i, v.col i = b.col i) : a.beq v = a.beq b := by
  have hh : v.zobristHash = b.zobristHash := by rw [hv.hash, hb.hash]; exact hashFn_congr (fun i _ => hc i)
  unfold Goban.beq
  rw [hh, hs, hb.size]
  split
  · rfl
  · rw [ha.size, allCoords_eq]
    have key : ∀ l : List Coord, (∀ q ∈ l, OnBoard n q) → a.beqFrom v l = a.beqFrom b l := by
      intro l
      induction l with
      | nil => intro _; rfl
      | cons q l ih =>
        intro hl
        have hq := hl q (by simp)
        unfold Goban.beqFrom
        rw [show v.getColor q = b.getColor q by
          unfold Goban.getColor
          have hi := (twoTo1_lt ha.good hq).lt361 ha.good
          rw [hs, hb.size, hv.rep.getColorIdx hi, hb.rep.getColorIdx hi, hc], ih (fun z hz => hl z (by simp [hz]))]
    exact key _ (fun p hp => mem_points.1 hp)

theorem contains_same {b v : Goban} (hb : Inv n b) (hv : Weak v) (hs : v.size = n.sz) (hc : ∀ i, v.col i = b.col i) :
    ∀ (l : List Goban), (∀ a ∈ l, Inv n a) → historyContains l v = historyContains l b
  | [], _ => rfl
  | a :: l, h => by
    unfold historyContains
    rw [beq_same (h a (by simp)) hb hv hs hc, contains_same hb hv hs hc l (fun z hz => h z (by simp [hz]))]

theorem stands_lands (h2 : 2 ≤ n.h) (hi : x * n.h + y < 361) : landsOn n (x, y) = Spec.standsAt n x y ∧
    (x * n.h + y) / n.h < 255 := by
  have : (x * n.h + y) / n.h < 255 := Nat.div_lt_of_lt_mul (by have := Nat.mul_le_mul_right 255 h2; omega)
  refine ⟨?_, this⟩
  unfold landsOn Spec.standsAt
  dsimp only
  rw [Nat.mod_eq_of_lt (by omega)]

theorem beside_adj {p q : Coord} (hp1 : p.1 < 255) (hp2 : p.2 < 255) (hq1 : q.1 < 255) (hq2 : q.2 < 255) : Beside p q ↔ Adj p q := by
  unfold Beside Adj Spec.Next
  omega

/-- A group of the opponent with exactly one liberty stands beside the place where (x, y) is taken to be. -/
def SeesAtari (n : Dim) (pos : Pos) (c : Color) (x y : Nat) : Prop :=
  ∃ q, OnBoard n q ∧ Adj (Spec.standsAt n x y) q ∧ pos q = some c.opp ∧ OneLiberty n pos q

theorem willCapture_hidden (h : Inv n g.goban) (h2 : 2 ≤ n.h) (hi : x * n.h + y < 361) :
    ∃ b, g.willCapture dbg (x, y) = .ok b ∧ (b = true ↔ SeesAtari n g.goban.view g.turn x y) := by
  obtain ⟨e1, e2⟩ := stands_lands h2 hi
  have hw := h.good.w19
  have h19 := h.good.h19
  have hw0 := (h.toWeak h2).w0
  rw [h.size] at hw0
  have hm : (x * n.h + y) % n.w < 19 := Nat.lt_of_lt_of_le (Nat.mod_lt _ (Nat.pos_of_ne_zero hw0)) hw
  obtain ⟨b, e, hb⟩ := willCapture_from (dbg := dbg) (p := (x, y)) h (by omega) (by
    rw [e1]
    rintro ⟨_, h3⟩
    unfold Spec.standsAt at h3
    dsimp only at h3
    omega)
  refine ⟨b, e, hb.trans (exists_congr fun q => and_congr_right fun hq => ?_)⟩
  rw [e1, beside_adj (p := Spec.standsAt n x y) e2 (show (x * n.h + y) % n.w < 255 by omega) (by have := hq.1; omega) (by have := hq.2; omega)]

theorem Sim.superKo_alias {o : Option EndGame} {s : Spec.State} (h : Sim dbg n m o g s) {p : Coord} (hp : OnBoard n p)
    (hxy : ¬ OnBoard n (x, y)) (hi : x * n.h + y = p.1 * n.h + p.2) (he : s.pos p = none) (sa : Bool) :
    Safe g.Full (g.checkSuperKo dbg { coord := (x, y), color := g.turn }) (fun b => (b = true ↔ Spec.SuperKoSeen n sa s p)) := by
  have hsz := h.inv.size
  have ew : g.willCapture dbg (x, y) = g.willCapture dbg p := by
    unfold Game.willCapture Goban.connectedGroups
    rw [hsz, show twoTo1dim n.sz (x, y) = twoTo1dim n.sz p from hi]
  have ev : g.playForVerification dbg (x, y) = g.playForVerification dbg p := by
    unfold Game.playForVerification Goban.pushWthFeedback
    rw [hsz, show twoTo1dim n.sz (x, y) = twoTo1dim n.sz p from hi]
  have ek : g.checkKo dbg { coord := (x, y), color := g.turn } = .ok false := by
    unfold Game.checkKo
    dsimp only
    rw [if_neg]
    intro hk
    obtain ⟨_, _, hb, _⟩ := (h.ko (x, y)).1 hk
    exact hxy hb
  unfold Game.checkSuperKo Spec.SuperKoSeen
  dsimp only
  rw [h.hist.length, ew, ev, ek]
  split
  · rename_i hl
    exact Safe.ok (by simp; intro h'; omega)
  · rename_i hl
    obtain ⟨bc, ec, hbc⟩ := h.willCapture hp he
    rw [ec, ok_bind]
    cases bc with
    | false =>
      refine Safe.ok ?_
      simp only [Bool.false_eq_true, false_iff] at hbc ⊢
      intro h'; exact hbc h'.2.1
    | true =>
      have hcap := hbc.1 rfl
      have hns := not_suicide_of_capture h.noDead hp he hcap
      rw [if_neg (by simp)]
      apply Safe.bind (h.verification hp he)
      rintro v ⟨hvi, hv, _⟩
      obtain ⟨r, er, hr⟩ := historyContains_ok hvi g.history h.histInv
      rw [ok_bind, if_neg (by simp)]
      refine Or.inl ⟨r, er, ?_⟩
      dsimp only
      rw [hr, h.hist.exists, mem_firsts]
      unfold Spec.SuperKo
      have hw : SameOn n (Spec.play n sa s.pos p s.turn) v.view :=
        SameOn.trans (play_eq_after _ h.noDead hp he hns) (SameOn.symm (hv hns))
      constructor
      · rintro ⟨q, h1, h2⟩; exact ⟨by omega, hcap, q, h1, (sameOn_congr hw (SameOn.refl q)).2 (SameOn.symm h2)⟩
      · rintro ⟨_, _, q, h1, h2⟩; exact ⟨q, h1, SameOn.symm ((sameOn_congr hw (SameOn.refl q)).1 h2)⟩

/-- **C97**, `check_super_ko` on a pair outside the board whose cell is that of a point `p`: the question is asked about `p`. -/
theorem C97_super_ko_alias {g0 : Game} {m0 : Nat} (hf : Fresh dbg n m0 g0) (hd : NoDead n g0.goban.view) {cs : List GOp}
    (hcs : ∀ c ∈ cs, c.OnBoard n) {es : List (Option PlayError)} (e : g0.run dbg cs = .ok (es, g)) {p : Coord}
    (hp : OnBoard n p) (hxy : ¬ OnBoard n (x, y)) (hi : x * n.h + y = p.1 * n.h + p.2) (he : g.goban.getColor p = .ok none) :
    Safe (65535 ≤ m0 + cs.length) (g.checkSuperKo dbg { coord := (x, y), color := g.turn }) (fun b => (b = true ↔
      3 ≤ (Spec.firsts n (g0.abstractly n cs es).played).length ∧ Spec.Captures n g.goban.view p g.turn ∧
      ∃ b ∈ (g0.abstractly n cs es).played, SameOn n (Spec.play n (!g.rule.flagIllegal.suicide) g.goban.view p g.turn) b)) := by
  obtain ⟨m', hm', hs, _, _⟩ := run_sim hf hd hcs e
  have he' := (getColor_none hs.inv hp).1 he
  refine ((hs.superKo_alias hp hxy hi (by rw [← hs.pos p hp]; exact he') (!g.rule.flagIllegal.suicide)).weaken
    (fun h => by have := hs.full h; omega)).mono ?_
  intro b hb
  rw [hb]
  unfold Spec.SuperKoSeen Spec.SuperKo
  rw [captures_congr hs.pos p g.turn, hs.turn]
  apply and_congr_right; intro _
  apply and_congr_right; intro _
  have h1 := play_congr hs.pos (!g.rule.flagIllegal.suicide) p (g0.abstractly n cs es).turn
  constructor
  · rintro ⟨b, hb, h2⟩; exact ⟨b, hb, SameOn.trans h1 h2⟩
  · rintro ⟨b, hb, h2⟩; exact ⟨b, hb, SameOn.trans (SameOn.symm h1) h2⟩

/-- The board that `check_super_ko` makes up for a pair whose cell is no point of the board, in a release build: the stone stands on
its cell; or it has been taken off again, if the rule says that suicide is forbidden and all neighbours are of the other colour. -/
theorem verification_hidden (h : Inv n g.goban) (hnd : NoDead n g.goban.view) (h2 : 2 ≤ n.h) (hh : Spec.Hidden n x y) :
    Safe g.Full (g.playForVerification false (x, y)) (fun v => Weak v ∧ v.size = n.sz ∧
      ((g.rule.flagIllegal.suicide = true ∧ (∀ q, OnBoard n q → Adj (Spec.standsAt n x y) q → g.goban.view q = some g.turn.opp) ∧
          ∀ i, v.col i = g.goban.col i) ∨
        (¬ (g.rule.flagIllegal.suicide = true ∧
            ∀ q, OnBoard n q → Adj (Spec.standsAt n x y) q → g.goban.view q = some g.turn.opp) ∧
          ∀ i, v.col i = if i = x * n.h + y then some g.turn else g.goban.col i))) := by
  have hi := hh.1
  have hx := hidden_ix hh
  have hb : g.goban.bd (x * n.h + y) = none := by
    cases hb : g.goban.bd (x * n.h + y) with
    | none => rfl
    | some k => exact absurd (h.off _ k hb) hx
  have hw := h.toWeak h2
  have ei : twoTo1dim g.goban.size (x, y) = x * n.h + y := by rw [h.size]; rfl
  unfold Game.playForVerification
  rcases push_hidden (dbg := false) (c := g.turn) (pt := (x, y)) (p := x * n.h + y) h h2 rfl hi hx (fun hd => by cases hd) with
    ⟨f, ef, o⟩ | ⟨ef, hf⟩
  · have hfw : WPush g.goban (x * n.h + y) g.turn f := by
      have := pushed_weak (dbg := false) hw (by rw [ei]; exact hi) (by rw [ei]; exact hb) ef
      rwa [ei] at this
    have hdead : f.dead = [] := by
      rw [List.eq_nil_iff_forall_not_mem]
      intro j hj
      obtain ⟨gj, h3, h4⟩ := o.dead j hj
      rw [noDead_ch h hnd j gj h3] at h4; cases h4
    obtain ⟨gt, h3, h4, h5⟩ := o.grp
    have h5 := h5 (noDead_ch h hnd)
    have hsp := seen_spec h.good h2 hi (P := fun o => o = some g.turn.opp) h
    rw [ef, ok_bind, hdead]
    unfold Goban.removeCapturedStonesAux
    dsimp only
    rw [show ([] : List Nat).foldlM (Goban.captureStep false ([].length == 1)) { removed := (0, 0), ko := none, goban := f.goban } =
      (.ok { removed := (0, 0), ko := none, goban := f.goban } : M Goban.Captures) from rfl, ok_bind, Goban.chainAt_ok h3, ok_bind]
    dsimp only
    by_cases hcase : g.rule.flagIllegal.suicide = true ∧
        ∀ q, OnBoard n q → Adj (Spec.standsAt n x y) q → g.goban.view q = some g.turn.opp
    · have hall := hsp.2 hcase.2
      obtain ⟨g', er, hr⟩ := remove_release hfw.weak h3
      rw [if_pos (by rw [hcase.1, h5.2 hall]; rfl), er, ok_bind]
      refine Safe.ok ⟨hr.weak, hr.size.trans (o.size.trans h.size), Or.inl ⟨hcase.1, hcase.2, fun i => ?_⟩⟩
      show g'.col i = _
      rw [hr.col]
      by_cases hip : i = x * n.h + y
      · rw [hip, if_pos o.added, h.col_off hx]
      · rw [if_neg (fun h' => hip (o.alone hall i h')), o.col, if_neg hip]
    · rw [if_neg (by
        rw [Bool.and_eq_true]
        rintro ⟨h6, h7⟩
        exact hcase ⟨by simpa using h6, hsp.1 (h5.1 (by simpa using h7))⟩)]
      exact Safe.ok ⟨hfw.weak, o.size.trans h.size, Or.inr ⟨hcase, o.col⟩⟩
  · right
    rw [ef]
    exact ⟨rfl, hf⟩

/-- **C97**, `check_super_ko` on a pair whose cell is no point of the board, in a release build. It is true only in this case: at
least three positions have been played from; a group of the opponent in atari is beside the place where the pair is taken to be;
the rule forbids suicide and all points beside that place are of the opponent; and the position is one from which a stone was
played before. -/
theorem C97_super_ko_hidden {g0 : Game} {m0 : Nat} (hf : Fresh false n m0 g0) (hd : NoDead n g0.goban.view) {cs : List GOp}
    (hcs : ∀ c ∈ cs, c.OnBoard n) {es : List (Option PlayError)} (e : g0.run false cs = .ok (es, g)) (h2 : 2 ≤ n.h)
    (hh : Spec.Hidden n x y) :
    Safe (65535 ≤ m0 + cs.length) (g.checkSuperKo false { coord := (x, y), color := g.turn }) (fun b => (b = true ↔
      3 ≤ (Spec.firsts n (g0.abstractly n cs es).played).length ∧ SeesAtari n g.goban.view g.turn x y ∧
      g.rule.flagIllegal.suicide = true ∧
      (∀ q, OnBoard n q → Adj (Spec.standsAt n x y) q → g.goban.getColor q = .ok (some g.turn.opp)) ∧
      ∃ b ∈ (g0.abstractly n cs es).played, SameOn n g.goban.view b)) := by
  obtain ⟨m', hm', hs, _, _⟩ := run_sim hf hd hcs e
  have h := hs.inv
  have hnd : NoDead n g.goban.view := hs.noDead'
  have hxy : ¬ OnBoard n (x, y) := fun ho => hh.2 _ ho rfl
  have ek : g.checkKo false { coord := (x, y), color := g.turn } = .ok false := by
    unfold Game.checkKo
    dsimp only
    rw [if_neg]
    intro hk
    obtain ⟨_, _, hb, _⟩ := (hs.ko (x, y)).1 hk
    exact hxy hb
  unfold Game.checkSuperKo
  dsimp only
  rw [hs.hist.length, ek]
  split
  · rename_i hl
    exact Safe.ok (by simp; intro h'; omega)
  · rename_i hl
    obtain ⟨bc, ec, hbc⟩ := willCapture_hidden (dbg := false) h h2 hh.1
    rw [ec, ok_bind]
    cases bc with
    | false =>
      refine Safe.ok ?_
      simp only [Bool.false_eq_true, false_iff] at hbc ⊢
      intro h'; exact hbc h'.2.1
    | true =>
      rw [if_neg (by simp)]
      refine Safe.bind ((verification_hidden h hnd h2 hh).weaken (fun h => by have := hs.full h; omega)) ?_
      rintro v ⟨hv, hsz, hcase⟩
      rw [ok_bind, if_neg (by simp)]
      have hopp : (∀ q, OnBoard n q → Adj (Spec.standsAt n x y) q → g.goban.getColor q = .ok (some g.turn.opp)) ↔
          ∀ q, OnBoard n q → Adj (Spec.standsAt n x y) q → g.goban.view q = some g.turn.opp :=
        forall_congr' fun q => forall_congr' fun hq => forall_congr' fun _ => by
          rw [h.getColor_view hq, Except.ok.injEq]
      rw [hopp]
      rcases hcase with ⟨h3, h4, h5⟩ | ⟨h3, h5⟩
      · rw [contains_same h hv hsz h5 _ hs.histInv]
        obtain ⟨r, er, hr⟩ := historyContains_ok h g.history hs.histInv
        refine Or.inl ⟨r, er, ?_⟩
        dsimp only
        rw [hr, hs.hist.exists, mem_firsts]
        constructor
        · rintro ⟨b, h6, h7⟩; exact ⟨by omega, hbc.1 rfl, h3, h4, b, h6, SameOn.symm h7⟩
        · rintro ⟨_, _, _, _, b, h6, h7⟩; exact ⟨b, h6, SameOn.symm h7⟩
      · refine Or.inl ⟨false, contains_extra h hv hsz hh.1 (hidden_ix hh) h5 _ hs.histInv, ?_⟩
        simp only [Bool.false_eq_true, false_iff]
        rintro ⟨_, _, h6, h7, _⟩
        exact h3 ⟨h6, h7⟩

/-- **C97**, the same in a debug build: it panics if at least three positions have been played from and a group of the opponent in
atari is beside that place, and otherwise it is false. -/
theorem C97_super_ko_hidden_debug {g0 : Game} {m0 : Nat} (hf : Fresh true n m0 g0) (hd : NoDead n g0.goban.view) {cs : List GOp}
    (hcs : ∀ c ∈ cs, c.OnBoard n) {es : List (Option PlayError)} (e : g0.run true cs = .ok (es, g)) (h2 : 2 ≤ n.h)
    (hh : Spec.Hidden n x y) :
    (3 ≤ (Spec.firsts n (g0.abstractly n cs es).played).length ∧ SeesAtari n g.goban.view g.turn x y →
      g.checkSuperKo true { coord := (x, y), color := g.turn } = panic) ∧
    (¬ (3 ≤ (Spec.firsts n (g0.abstractly n cs es).played).length ∧ SeesAtari n g.goban.view g.turn x y) →
      g.checkSuperKo true { coord := (x, y), color := g.turn } = .ok false) := by
  obtain ⟨m', hm', hs, _, _⟩ := run_sim hf hd hcs e
  have h := hs.inv
  obtain ⟨bc, ec, hbc⟩ := willCapture_hidden (dbg := true) h h2 hh.1
  unfold Game.checkSuperKo
  dsimp only
  rw [hs.hist.length, ec]
  constructor
  · rintro ⟨h3, h4⟩
    rw [if_neg (by omega), ok_bind, hbc.2 h4, if_neg (by simp)]
    obtain ⟨q, hq, ha, hc, _⟩ := h4
    obtain ⟨k, hk⟩ := bd_of_view h hq hc
    unfold Game.playForVerification
    rw [push_hidden_debug (pt := (x, y)) h h2 rfl hh.1 (hidden_ix hh)
      ((mem_seen h.good h2 hh.1).2 ⟨twoTo1_lt h.good hq, by rw [ptOf_twoTo1 h.good hq]; exact ha⟩) hk]
    rfl
  · intro h3
    split
    · rfl
    · rename_i hl
      rw [ok_bind]
      cases bc with
      | false => rfl
      | true => exact absurd ⟨by omega, hbc.1 rfl⟩ h3

/-- **C97**, `check_point_by` outside the board, with super-ko: the tests before it apply as without super-ko; if none of them
does, the answer is that of `check_super_ko`. -/
theorem C97_check_point_superko (h : Legal dbg n m g) (hn : 0 < n.h) (hx : x < 256) (hy : y < 256) (hp : ¬ OnBoard n (x, y))
    (ho : ¬ Overflows dbg (x, y)) (ho' : ¬ Overflows dbg (landsOn n (x, y))) {r : IllegalRules} (hr : r.superko = true) :
    (361 ≤ x * n.h + y → g.checkPointBy dbg (x, y) r = panic) ∧
    (∀ c, g.goban.getColor (x, y) = .ok (some c) → g.checkPointBy dbg (x, y) r = .ok (some .pointNotEmpty)) ∧
    (g.goban.getColor (x, y) = .ok none →
      (r.suicide = true → SuicideFrom n g.goban.view g.turn (x, y) → g.checkPointBy dbg (x, y) r = .ok (some .suicide)) ∧
      ((r.suicide = true → ¬ SuicideFrom n g.goban.view g.turn (x, y)) →
        (r.fillEye = true → EyeFrom n g.goban.view g.turn (x, y) → g.checkPointBy dbg (x, y) r = .ok (some .fillEye)) ∧
        ((r.fillEye = true → ¬ EyeFrom n g.goban.view g.turn (x, y)) →
          (g.checkSuperKo dbg { coord := (x, y), color := g.turn } = .ok true → g.checkPointBy dbg (x, y) r = .ok (some .ko)) ∧
          (g.checkSuperKo dbg { coord := (x, y), color := g.turn } = .ok false → g.checkPointBy dbg (x, y) r = .ok none) ∧
          (g.checkSuperKo dbg { coord := (x, y), color := g.turn } = panic → g.checkPointBy dbg (x, y) r = panic)))) := by
  obtain ⟨_, _, hre⟩ := h.reach
  have hI := hre.inv
  refine ⟨fun hi => ?_, fun c hc => ?_, fun he => ?_⟩
  · unfold Game.checkPointBy
    dsimp only
    rw [(getColor_from (p := (x, y)) hI).1 hi]
    rfl
  · unfold Game.checkPointBy
    dsimp only
    rw [hc]
    rfl
  · obtain ⟨b1, e1, h1⟩ := checkSuicide_from (dbg := dbg) (c := g.turn) hI hn hx hy ho ho'
    obtain ⟨b2, e2, h2⟩ := checkEye_from (dbg := dbg) (c := g.turn) hI hx hy ho he
    have key : g.checkPointBy dbg (x, y) r = (if (r.suicide && b1) = true then .ok (some .suicide)
        else if (r.fillEye && b2) = true then .ok (some .fillEye)
        else do if ← g.checkSuperKo dbg { coord := (x, y), color := g.turn } then .ok (some .ko) else .ok none) := by
      unfold Game.checkPointBy
      dsimp only
      rw [he, e1, e2, C97_check_ko h hp, hr]
      cases r.suicide <;> cases r.ko <;> cases r.fillEye <;> cases b1 <;> cases b2 <;> rfl
    rw [key, ← h1, ← h2]
    generalize g.checkSuperKo dbg { coord := (x, y), color := g.turn } = z
    refine ⟨fun a b => by rw [a, b]; rfl, fun a => ⟨fun c d => ?_, fun c => ?_⟩⟩
    · have : (r.suicide && b1) = false := by cases hs : r.suicide <;> cases b1 <;> simp_all
      rw [this, c, d]; rfl
    · have t1 : (r.suicide && b1) = false := by cases hs : r.suicide <;> cases b1 <;> simp_all
      have t2 : (r.fillEye && b2) = false := by cases hs : r.fillEye <;> cases b2 <;> simp_all
      rw [t1, t2]
      refine ⟨fun e => by rw [e]; rfl, fun e => by rw [e]; rfl, fun e => by rw [e]; rfl⟩

/-- Right after the ko capture of `exKo`, (0, 5) is not the ko point but lands on it: `check_ko` is false, `check_super_ko` true. -/
theorem C97_super_ko_alias_example : ∃ g, Legal true 4 9 g ∧ (g.checkKo true { coord := (0, 5), color := g.turn } = .ok false ∧
    g.checkKo true { coord := (1, 1), color := g.turn } = .ok true ∧
    g.checkSuperKo true { coord := (0, 5), color := g.turn } = .ok true ∧ g.goban.getColor (1, 1) = .ok none : Bool) = true :=
  mkGame_exists (n := 4) (rule := CHINESE) (l := exKo) (by decide) (by decide +kernel)

/-- A ko at the lower edge, taken and retaken, so that the position is one played from before; White's stone on (3, 1) is in atari. -/
def exEdgeKo : List GOp :=
  [.try_ (.play 3 0), .try_ (.play 3 3), .try_ (.play 2 1), .try_ (.play 2 2), .try_ .pass, .try_ (.play 3 1), .try_ (.play 3 2),
    .try_ (.play 3 1)]

/-- A rule without ko in which suicide is forbidden. -/
def NOKO : Rule := { CHINESE with flagIllegal := { ko := false, superko := false, suicide := true, fillEye := false } }

/-- For (4, 1), below the board, a release build finds super-ko and a debug build panics; further away both find nothing. -/
theorem C97_super_ko_hidden_example :
    (∃ g, Legal false 4 8 g ∧ (g.checkSuperKo false { coord := (4, 1), color := g.turn } = .ok true ∧
      g.checkSuperKo false { coord := (6, 1), color := g.turn } = .ok false ∧ g.goban.getColor (3, 1) = .ok (some .white) ∧
      g.turn = .black : Bool) = true) ∧
    ∃ g, Legal true 4 8 g ∧ (g.checkSuperKo true { coord := (4, 1), color := g.turn } = panic ∧
      g.checkSuperKo true { coord := (6, 1), color := g.turn } = .ok false : Bool) = true :=
  ⟨mkGame_exists (n := 4) (rule := NOKO) (l := exEdgeKo) (by decide) (by decide +kernel),
    mkGame_exists (n := 4) (rule := NOKO) (l := exEdgeKo) (by decide) (by decide +kernel)⟩

end Model
