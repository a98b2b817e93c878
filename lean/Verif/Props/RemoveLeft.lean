import Verif.Props.OffTable
import Verif.Proofs.Stones
/-!
# C134: what a panic of `remove_chain` leaves behind
-/

namespace Model
open Spec (OnBoard Adj)

variable {n : Dim} {m : Nat} {b : Goban} {p : Coord} {c : Color} {dbg : Bool}

/-- `remove_chain` with the board kept on a panic is the `remove_chain` of the model. -/
theorem C134_same_call (dbg : Bool) (b : Goban) (k : Nat) : U.toM (Goban.removeChainU dbg k) b = b.removeChain dbg k >>= fun b' => .ok ((), b') :=
  Goban.removeChain_toM dbg k b

/-- **C134** on a sound board: if `remove_chain` panics, nothing has changed. -/
theorem C134_unchanged {k : Nat} (h : Board dbg n m b) (hx : b.removeChain dbg k = panic) :
    Goban.removeChainU dbg k b = .error .panic b := by
  cases hk : b.ch k with
  | some gk =>
    obtain ⟨g', e, _⟩ := remove_spec (dbg := dbg) h.inv.1 hk
    rw [e] at hx; cases hx
  | none =>
    have e : b.chains.chainAt k = panic := by
      cases e : b.chains.chainAt k with
      | ok a => rw [live_ch.1 e] at hk; cases hk
      | error f =>
        unfold Groups.chainAt at e
        split at e
        · cases e
        · exact e.symm
    unfold Goban.removeChainU
    refine U.bind_error ?_
    unfold rd
    dsimp only
    rw [e]
    rfl

/-! ### A group whose last link leads beyond the table -/

/-- The loop over such a group goes through all its stones and then panics. -/
theorem loop_off {σ : Type} {body : Nat → U σ Unit} {body' : σ → Nat → M σ}
    (hb : ∀ i s, U.toM (body i) s = body' s i >>= fun s' => .ok ((), s')) {nx : List Nat} {o i z : Nat} (hi : nx.length ≤ i) (ho : i ≠ o) :
    ∀ (t : List Nat) (a fuel : Nat) (s s' : σ), Walk nx o (a :: t) → (a :: t).Nodup → o ∉ t → (a :: t).getLast? = some z →
      (a :: t).length < fuel → (a :: t).foldlM body' s = .ok s' →
      Goban.iterFoldFromU dbg (nx.set z i) o body fuel a s = .error .panic s' := by
  intro t
  induction t with
  | nil =>
    intro a fuel s s' hw _ _ hz hf e
    obtain ⟨f, rfl⟩ : ∃ f, fuel = f + 2 := ⟨fuel - 2, by simp at hf; omega⟩
    have hza : a = z := by simpa using hz
    subst hza
    have ha : a < nx.length := hw.lt a (by simp)
    rw [List.foldlM_cons] at e
    obtain ⟨s1, e1, e2⟩ := bind_eq_ok e
    cases e2
    unfold Goban.iterFoldFromU
    rw [getElem?_set_eq' ha]
    dsimp only
    rw [if_neg ho, if_neg (by simp; omega), U.bind_ok (U.of_toM (by rw [hb, e1]; rfl))]
    unfold Goban.iterFoldFromU
    rw [List.getElem?_eq_none (by rw [List.length_set]; exact hi)]
    rfl
  | cons b t ih =>
    intro a fuel s s' hw hnd hno hz hf e
    obtain ⟨f, rfl⟩ : ∃ f, fuel = f + 1 := ⟨fuel - 1, by simp at hf; omega⟩
    have hz' : (b :: t).getLast? = some z := by rwa [List.getLast?_cons_cons] at hz
    have hza : z ≠ a := by
      rintro rfl
      exact (List.nodup_cons.1 hnd).1 (List.mem_of_getLast? hz')
    have hba : b ≠ a := fun h => by
      rw [List.nodup_cons] at hnd
      exact hnd.1 (by simp [h])
    have hbo : b ≠ o := fun h => hno (by simp [h])
    rw [List.foldlM_cons] at e
    obtain ⟨s1, e1, e2⟩ := bind_eq_ok e
    have hih := ih b f s1 s' hw.2 (List.nodup_cons.1 hnd).2 (fun h => hno (List.mem_cons_of_mem _ h)) hz' (by simpa using hf) e2
    unfold Goban.iterFoldFromU
    rw [List.getElem?_set_ne hza, hw.1]
    dsimp only
    rw [if_neg hbo, if_neg (by simp [hba]), U.bind_ok (U.of_toM (by rw [hb, e1]; rfl))]
    exact hih

/-- Removing a stone neither reads nor writes the links. -/
theorem removeStone_next (dbg : Bool) (k : Nat) (c : Color) (g : Goban) (i : Nat) (x : List Nat) :
    Goban.removeStoneStep dbg k c { g with nextStone := x } i = Goban.removeStoneStep dbg k c g i >>= fun g' => .ok { g' with nextStone := x } := by
  have hl : ∀ (l : List Nat) (g : Goban), l.foldlM (fun (g : Goban) n => do
      let ch ← g.chains.chainAt n
      let ch ← ch.addLiberty dbg i
      .ok (g.setChain n ch)) ({ g with nextStone := x } : Goban) = l.foldlM (fun (g : Goban) n => do
      let ch ← g.chains.chainAt n
      let ch ← ch.addLiberty dbg i
      .ok (g.setChain n ch)) g >>= fun g' => .ok { g' with nextStone := x } := by
    intro l
    induction l with
    | nil => intro g; rfl
    | cons a l ih =>
      intro g
      simp only [List.foldlM_cons, bind_assoc, ok_bind]
      congr 1; funext ch
      congr 1; funext ch'
      exact ih (g.setChain a ch')
  unfold Goban.removeStoneStep
  simp only [bind_assoc]
  rw [show Goban.connectedGroupsIdx dbg { g with nextStone := x } i = g.connectedGroupsIdx dbg i from rfl]
  congr 1; funext ns
  rw [hl, bind_assoc]
  congr 1; funext g1
  rw [ok_bind]
  congr 1; funext z
  unfold Goban.setBoard
  dsimp only
  split <;> rfl

theorem removeStones_next (dbg : Bool) (k : Nat) (c : Color) (x : List Nat) : ∀ (l : List Nat) (g : Goban),
    l.foldlM (Goban.removeStoneStep dbg k c) { g with nextStone := x } =
      l.foldlM (Goban.removeStoneStep dbg k c) g >>= fun g' => .ok { g' with nextStone := x } := by
  intro l
  induction l with
  | nil => intro g; rfl
  | cons a l ih =>
    intro g
    simp only [List.foldlM_cons, removeStone_next, bind_assoc, ok_bind, ih]

/-- Records that differ in their liberties only are counted the same. -/
theorem Rem.number {g g' : Goban} {k : Nat} {d : List Nat} (h : Rem n g g' k d) : g'.numberOfStones = g.numberOfStones := by
  have hs : ∀ c : Color, g'.chains.map (slotCount c) = g.chains.map (slotCount c) := by
    intro c
    apply List.ext_getElem
    · rw [List.length_map, List.length_map, h.clen]
    · intro j h1 h2
      rw [List.length_map] at h1 h2
      rw [List.getElem_map, List.getElem_map]
      have e1 : g'.ch j = g'.chains[j] := by unfold Goban.ch; rw [List.getElem?_eq_getElem h1]; rfl
      have e2 : g.ch j = g.chains[j] := by unfold Goban.ch; rw [List.getElem?_eq_getElem h2]; rfl
      rw [← e1, ← e2]
      cases hj : g.ch j with
      | none => rw [h.chn j hj]
      | some gj =>
        obtain ⟨l', h3, _⟩ := h.ch j gj hj
        rw [h3]; rfl
  unfold Goban.numberOfStones
  rw [numberOfStones_eq, numberOfStones_eq, hs, hs]

/-- **C134** for the group damaged as in `C132_cut`: `remove_chain` panics, but only after it has taken all stones of the group off the
board. The points, the hash and the other groups are as if it had succeeded; `number_of_stones` still counts the stones that are gone. -/
theorem C134_cut (h : Board false n m b) (hi : 361 ≤ p.1 * n.h + p.2) (h2 : p.1 * n.h + p.2 ≤ 367) (h19 : n.h = 19)
    (hc : b.getColor (18, (p.1 * n.h + p.2) % n.w) = .ok (some c)) :
    ∃ b', Goban.pushU false p c b = .error .panic b' ∧
      ∀ k l, b.chainStonesIdx false k = .ok l → (∃ s ∈ l, s.coord = (18, (p.1 * n.h + p.2) % n.w)) →
        ∃ r b'', b.removeChain false k = .ok r ∧ Goban.removeChainU false k b' = .error .panic b'' ∧ (∀ q, b''.getColor q = r.getColor q) ∧
          b''.zobristHash = r.zobristHash ∧ b''.numberOfStones = b.numberOfStones ∧
          ∀ j, j ≠ k → b''.chains.chainAt j = r.chains.chainAt j := by
  have hI := h.inv.1
  have hr := hI.rep
  obtain ⟨ho, ht⟩ := beside_bd (p := p) hI h19
  have hcol : b.col (342 + twoTo1dim n.sz p % n.w) = some c := by
    rw [← ht]
    have hc' := hc
    unfold Goban.getColor at hc'
    rw [hI.size] at hc'
    have := hr.getColorIdx (hI.lt361 (twoTo1_lt hI.good ho))
    rw [show (18, (p.1 * n.h + p.2) % n.w) = besideOff n p from rfl, this] at hc'
    exact Except.ok.inj hc'
  cases hk : b.bd (342 + twoTo1dim n.sz p % n.w) with
  | none => rw [col_none hk] at hcol; cases hcol
  | some k0 =>
    obtain ⟨g0, hg0⟩ := hr.live _ _ hk
    have hgc : g0.color = c := by
      rw [col_of_bd hk hg0] at hcol; exact Option.some.inj hcol
    have hpush := push_off_joins hI (pt := p) hi (by show p.1 * n.h + p.2 < 368; omega) h19 hk hg0 hgc
    obtain ⟨l0, hc0⟩ := hr.chain k0 g0 hg0
    refine ⟨cutBoard b g0.last (twoTo1dim n.sz p), pushU_of_feedback hI hi hpush (by simp), ?_⟩
    intro k l el hs
    obtain ⟨grp, hgrp⟩ : ∃ grp, b.ch k = some grp := by
      unfold Goban.chainStonesIdx at el
      obtain ⟨grp, e1, _⟩ := bind_eq_ok el
      exact ⟨grp, live_ch.1 e1⟩
    obtain ⟨l1, hc1⟩ := hr.chain k grp hgrp
    rw [chainStones_ok hI hgrp hc1] at el
    cases el
    have hkk : k = k0 := by
      obtain ⟨s, hs, hs'⟩ := hs
      rw [List.mem_map] at hs
      obtain ⟨j, hj, rfl⟩ := hs
      have hbj := (hc1.mem j).2 hj
      have : j = twoTo1dim n.sz (besideOff n p) := by
        rw [← twoTo1_ptOf (n := n) (i := j)]
        exact congrArg _ hs'
      rw [this, ht, hk] at hbj
      exact (Option.some.inj hbj).symm
    subst hkk
    rw [hg0] at hgrp; cases hgrp
    have hr0 : Rem n b b k [] := by
      refine ⟨hr.blen, rfl, rfl, rfl, by simp, fun _ h' => h', ?_, ?_⟩
      · intro j gj hgj
        obtain ⟨lj, hcj⟩ := hr.chain j gj hgj
        exact ⟨gj.liberties, hgj, hcj.libs, by simp⟩
      · rw [hI.hash]; simp
    obtain ⟨g1, e1, hR⟩ := removeStones_ok (dbg := false) hI hg0 l0 [] b hr0 (by simpa using hc0.nodup)
      (by intro x hx; exact (hc0.mem x).2 (by simpa using hx))
    rw [List.nil_append] at hR
    have hkl := Goban.ch_lt hg0
    have hrem : b.removeChain false k = .ok { g1 with chains := g1.chains.set k none } := by
      unfold Goban.removeChain
      rw [Goban.chainAt_ok hg0, ok_bind, Group.iterFold_of (hc0.iter hr.nlen), e1, ok_bind]
      unfold Groups.remove
      rw [if_pos (by rw [hR.clen]; exact hkl)]
      rfl
    have hchain : ∀ j, j ≠ k → g1.chains.chainAt j = Groups.chainAt (g1.chains.set k none) j := by
      intro j hj
      unfold Groups.chainAt
      rw [List.getElem?_set_ne (Ne.symm hj)]
    refine ⟨_, { g1 with nextStone := (cutBoard b g0.last (twoTo1dim n.sz p)).nextStone }, hrem, ?_, ?_, rfl, ?_, hchain⟩
    · unfold Goban.removeChainU
      refine step_rd (a := g0) (Goban.chainAt_ok hg0) (step_rd (a := (cutBoard b g0.last (twoTo1dim n.sz p)).nextStone) rfl (U.bind_error ?_))
      have hlen := hc0.length_le hr.nlen
      have hfold : l0.foldlM (Goban.removeStoneStep false k g0.color) (cutBoard b g0.last (twoTo1dim n.sz p)) =
          .ok { g1 with nextStone := (cutBoard b g0.last (twoTo1dim n.sz p)).nextStone } := by
        have := removeStones_next false k g0.color (cutBoard b g0.last (twoTo1dim n.sz p)).nextStone l0 b
        rw [e1, ok_bind] at this
        exact this
      have hnl : (cutBoard b g0.last (twoTo1dim n.sz p)).nextStone.length + 1 = 362 := by
        show (b.nextStone.set _ _).length + 1 = 362
        rw [List.length_set, hr.nlen]
      rw [hnl]
      cases l0 with
      | nil => exact hc0.walk.elim
      | cons a t =>
        have ha : a = g0.origin := by simpa using hc0.head
        have hnd := hc0.nodup
        rw [List.nodup_cons] at hnd
        have hor := hc0.walk.lt _ hc0.origin_mem
        rw [hr.nlen] at hor
        have := loop_off (dbg := false) (fun i s => Goban.removeStone_toM false k g0.color i s) (nx := b.nextStone) (o := g0.origin)
          (i := twoTo1dim n.sz p) (z := g0.last) (by rw [hr.nlen]; exact hi)
          (by show p.1 * n.h + p.2 ≠ _; omega) t a 362 _ _ hc0.walk hc0.nodup (ha ▸ hnd.1) hc0.last (by omega) hfold
        rw [ha] at this
        exact this
    · intro q
      unfold Goban.getColor Goban.getColorIdx Goban.boardAt
      dsimp only
      cases hq : g1.board[twoTo1dim g1.size q]? with
      | none => rfl
      | some o =>
        cases o with
        | none => rfl
        | some j =>
          have hbq : g1.bd (twoTo1dim g1.size q) = some j := by unfold Goban.bd; rw [hq]; rfl
          have hjk : j ≠ k := by
            rintro rfl
            rw [hR.bd] at hbq
            split at hbq
            · cases hbq
            · rename_i hx
              exact hx ((hc0.mem _).1 hbq)
          simp only [ok_bind, hchain j hjk]
    · exact hR.number

/-- A case of `C134_unchanged`: the board has one group, and the group `5` is asked to go. -/
theorem C134_unchanged_reached : ∃ b, Board false 9 1 b ∧ b.removeChain false 5 = panic ∧ b.getColor (4, 4) = .ok (some .black) := by
  obtain ⟨b0, e0, h⟩ := okAnd_iff.1 (show okAnd (Goban.new (9, 9)) (fun b0 => decide (b0.getColor (4, 4) = .ok none) &&
      okAnd (b0.push false (4, 4) .black) (fun b => isPanic (b.removeChain false 5) && decide (b.getColor (4, 4) = .ok (some .black)))) = true by
    decide +kernel)
  rw [Bool.and_eq_true] at h
  obtain ⟨b, e1, h'⟩ := okAnd_iff.1 h.2
  rw [Bool.and_eq_true] at h'
  exact ⟨b, .push (.new (by decide) e0) (by decide) (of_decide_eq_true h.1) e1, isPanic_iff h'.1, of_decide_eq_true h'.2⟩

/-- The moves of `C132_game_reached` to their end, under a rule without super-ko. White's capture at `(18, 1)` panics. The white stone is on the board and the black one is
gone, but it is still counted and is no prisoner, and it is White's turn again. -/
theorem C134_game_reached : ∃ g0 g1 g2, Game.new .nineteen JAPANESE = .ok g0 ∧ g0.tryPlay false (.play 18 0) = .ok (none, g1) ∧
    g1.tryPlay false .pass = .ok (none, g2) ∧ ∃ g3, Game.playU false (.play 19 0) g2 = .error .panic g3 ∧
    ∃ g4 g5 g6, g3.tryPlay false (.play 3 3) = .ok (none, g4) ∧ g4.tryPlay false (.play 17 0) = .ok (none, g5) ∧
      g5.tryPlay false (.play 4 4) = .ok (none, g6) ∧ ∃ g7, Game.tryPlayU false (.play 18 1) g6 = .error .panic g7 ∧
      g7.goban.getColor (18, 1) = .ok (some g6.turn) ∧ g7.goban.getColor (18, 0) = .ok none ∧ g6.goban.getColor (18, 0) = .ok (some .black) ∧
      g7.goban.numberOfStones = (3, 2) ∧ g7.prisoners = (0, 0) ∧ g7.turn = g6.turn := by
  obtain ⟨g0, e0, h⟩ := okAnd_iff.1 (show okAnd (Game.new .nineteen JAPANESE) (fun g0 =>
      acceptedAnd (g0.tryPlay false (.play 18 0)) (fun g1 => acceptedAnd (g1.tryPlay false .pass) (fun g2 =>
      isPanic (U.toM (Game.playU false (.play 19 0)) g2) &&
      acceptedAnd ((U.after (Game.playU false (.play 19 0)) g2).tryPlay false (.play 3 3)) (fun g4 =>
      acceptedAnd (g4.tryPlay false (.play 17 0)) (fun g5 => acceptedAnd (g5.tryPlay false (.play 4 4)) (fun g6 =>
      isPanic (U.toM (Game.tryPlayU false (.play 18 1)) g6) &&
      decide ((U.after (Game.tryPlayU false (.play 18 1)) g6).goban.getColor (18, 1) = .ok (some g6.turn) ∧
        (U.after (Game.tryPlayU false (.play 18 1)) g6).goban.getColor (18, 0) = .ok none ∧
        g6.goban.getColor (18, 0) = .ok (some .black) ∧
        (U.after (Game.tryPlayU false (.play 18 1)) g6).goban.numberOfStones = (3, 2) ∧
        (U.after (Game.tryPlayU false (.play 18 1)) g6).prisoners = (0, 0) ∧
        (U.after (Game.tryPlayU false (.play 18 1)) g6).turn = g6.turn))))))) = true by
    decide +kernel)
  obtain ⟨g1, e1, h⟩ := acceptedAnd_iff h
  obtain ⟨g2, e2, h⟩ := acceptedAnd_iff h
  rw [Bool.and_eq_true] at h
  obtain ⟨g4, e4, h'⟩ := acceptedAnd_iff h.2
  obtain ⟨g5, e5, h'⟩ := acceptedAnd_iff h'
  obtain ⟨g6, e6, h'⟩ := acceptedAnd_iff h'
  rw [Bool.and_eq_true] at h'
  have left : ∀ {α : Type} {u : U Game α} {g : Game}, isPanic (U.toM u g) = true → u g = .error .panic (U.after u g) := by
    intro α u g hp
    have hp := isPanic_iff hp
    unfold U.toM at hp
    unfold U.after
    cases e : u g with
    | ok a s => rw [e] at hp; cases hp
    | error f s => rw [e] at hp; cases hp; rfl
  exact ⟨g0, g1, g2, e0, e1, e2, _, left h.1, g4, g5, g6, e4, e5, e6, _, left h'.1, of_decide_eq_true h'.2⟩

end Model
