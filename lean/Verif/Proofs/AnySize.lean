import Verif.Proofs.WeakGame
import Verif.Proofs.Lists
import Verif.Spec.AnySize
/-!
# Whole games on boards of every size
-/

namespace Model

variable {dbg : Bool}

/-! ### What the cells show -/

theorem Rep.toVec {g : Goban} (h : Rep g) : g.toVec = .ok ((List.range 361).map g.col) := by
  unfold Goban.toVec
  have hbe : g.board = (List.range 361).map g.bd := by
    apply List.ext_getElem?
    intro i
    rw [List.getElem?_map]
    by_cases hi : i < 361
    · rw [List.getElem?_range hi, List.getElem?_eq_getElem (h.blen ▸ hi)]
      simp [Goban.bd, List.getElem?_eq_getElem (h.blen ▸ hi : i < g.board.length)]
    · rw [List.getElem?_eq_none (by rw [h.blen]; omega), List.getElem?_eq_none (by simp; omega)]
      rfl
  rw [hbe, List.mapM_map]
  exact mapM_ok (fun i _ => col_bind h)

theorem Rep.cells {g : Goban} (h : Rep g) : g.Cells ((List.range 361).map g.col) := ⟨h.toVec, by simp⟩

theorem Rep.cells_eq {g : Goban} (h : Rep g) {v : List MaybeColor} (hv : g.Cells v) : v = (List.range 361).map g.col := by
  have := hv.1
  rw [h.toVec] at this
  exact (Except.ok.inj this).symm

theorem Rep.col_ge {g : Goban} (h : Rep g) {i : Nat} (hi : 361 ≤ i) : g.col i = none := by
  apply col_none
  cases hb : g.bd i with
  | none => rfl
  | some k => exact absurd (h.bd_lt hb) (by omega)

theorem cells_get {f : Nat → MaybeColor} {i : Nat} (hi : i < 361) : ((List.range 361).map f)[i]? = some (f i) := by
  rw [List.getElem?_map, List.getElem?_range hi]; rfl

theorem cells_some {f : Nat → MaybeColor} {i : Nat} {o : MaybeColor} : ((List.range 361).map f)[i]? = some o ↔ i < 361 ∧ f i = o := by
  by_cases hi : i < 361
  · rw [cells_get hi]; simp [hi]
  · rw [List.getElem?_eq_none (by simp; omega)]; simp [hi]

theorem count_cells (f : Nat → MaybeColor) (c : Color) : ((List.range 361).map f).count (some c) = cnt f c 361 := by
  unfold cnt
  rw [List.count, List.countP_map]
  apply List.countP_congr
  intro i _
  simp

theorem Rep.numberOfStones {g : Goban} (h : Rep g) : g.numberOfStones = (cnt g.col .black 361, cnt g.col .white 361) := by
  unfold Goban.numberOfStones
  rw [numberOfStones_eq, h.slots, h.slots]
  simp

theorem chainAt_iff {g : Goban} {k : Nat} {grp : Group} : g.chains.chainAt k = .ok grp ↔ g.ch k = some grp := by
  unfold Groups.chainAt Goban.ch
  rw [Option.join_eq_some_iff]
  split
  · rename_i g' e; rw [e]; simp
  · rename_i h
    constructor
    · intro h'; cases h'
    · intro h'; exact absurd h' (h grp)

theorem Weak.groups {g : Goban} (h : Weak g) : ∃ L, g.Groups dbg ((List.range 361).map g.col) L ∧
    ∀ i k, i ∈ L k → g.bd i = some k := by
  classical
  refine ⟨fun k => if hk : ∃ l grp, IsChain g k grp l ∧ g.ch k = some grp then hk.choose else [], ?_⟩
  have key : ∀ k grp, g.ch k = some grp → ∃ l, IsChain g k grp l ∧
      (if hk : ∃ l grp, IsChain g k grp l ∧ g.ch k = some grp then hk.choose else []) = l := by
    intro k grp hk
    obtain ⟨l, hl⟩ := h.rep.chain k grp hk
    have hex : ∃ l grp, IsChain g k grp l ∧ g.ch k = some grp := ⟨l, grp, hl, hk⟩
    rw [dif_pos hex]
    obtain ⟨grp', h1, h2⟩ := hex.choose_spec
    rw [hk] at h2
    cases h2
    exact ⟨_, h1, rfl⟩
  have hmem : ∀ i k, i ∈ (if hk : ∃ l grp, IsChain g k grp l ∧ g.ch k = some grp then hk.choose else []) → g.bd i = some k := by
    intro i k hi
    split at hi
    · rename_i hex
      obtain ⟨grp', h1, h2⟩ := hex.choose_spec
      exact (h1.mem i).2 hi
    · cases hi
  refine ⟨⟨?_, ?_, ?_, ?_⟩, hmem⟩
  · intro k hk
    rw [dif_neg]
    rintro ⟨l, grp, _, h2⟩
    exact hk ⟨grp, chainAt_iff.2 h2⟩
  · intro k grp hk
    rw [chainAt_iff] at hk
    obtain ⟨l, hl, e⟩ := key k grp hk
    rw [e]
    refine ⟨?_, hl.nodup, hl.num, ?_, ?_⟩
    · intro h'
      have := hl.head
      rw [h'] at this; cases this
    · intro i hi
      have hb := (hl.mem i).2 hi
      rw [cells_get (h.rep.bd_lt hb), col_of_bd hb hk]
    · unfold Goban.chainStonesIdx
      rw [chainAt_iff.2 hk, ok_bind, hl.iter h.rep.nlen, ok_bind]
      apply mapM_ok
      intro i _
      unfold oneTo2dim
      rw [if_neg (by simp [h.h0, h.w0]), ok_bind]
      rfl
  · intro i c hi
    obtain ⟨_, hc⟩ := cells_some.1 hi
    obtain ⟨k, grp, h1, h2, _⟩ := h.rep.col_some_iff.1 hc
    obtain ⟨l, hl, e⟩ := key k grp h2
    refine ⟨k, ?_⟩
    rw [e]
    exact (hl.mem i).1 h1
  · intro i k j h1 h2
    have := (hmem i k h1).symm.trans (hmem i j h2)
    exact Option.some.inj this

theorem Rep.empty_of {g : Goban} (h : Rep g) {c : Coord} (hc : g.getColor c = .ok none) :
    twoTo1dim g.size c < 361 ∧ g.bd (twoTo1dim g.size c) = none := by
  have hlt : twoTo1dim g.size c < 361 := by
    refine Nat.lt_of_not_le (fun hge => ?_)
    unfold Goban.getColor Goban.getColorIdx Goban.boardAt at hc
    rw [List.getElem?_eq_none (by rw [h.blen]; exact hge)] at hc
    cases hc
  refine ⟨hlt, ?_⟩
  unfold Goban.getColor at hc
  rw [h.getColorIdx hlt] at hc
  exact h.col_none_iff.1 (Except.ok.inj hc)

theorem Rep.getColor_beyond {g : Goban} (h : Rep g) {c : Coord} (hc : 361 ≤ twoTo1dim g.size c) : g.getColor c = panic := by
  unfold Goban.getColor Goban.getColorIdx Goban.boardAt
  rw [List.getElem?_eq_none (by rw [h.blen]; exact hc)]
  rfl

/-! ### New boards -/

theorem new_any {s : Size} {g : Goban} (h : Goban.new s = .ok g) : Rep g ∧ g.zobristHash = hashFn g.col 361 ∧ g.size = s ∧
    g.chains = [] ∧ (∀ i, g.col i = none) ∧ s.1 ≤ 19 ∧ s.2 ≤ 19 := by
  obtain ⟨hn, hw, hg⟩ := new_eq_ok h
  have hb : ∀ i, g.bd i = none := by
    intro i
    subst hg
    simp only [Goban.bd, List.getElem?_replicate]
    split <;> rfl
  have hc : ∀ i, g.ch i = none := by
    intro i
    subst hg
    simp [Goban.ch]
  have hcol : ∀ i, g.col i = none := fun i => col_none (hb i)
  refine ⟨⟨by subst hg; exact List.length_replicate, by subst hg; exact List.length_replicate, ?_, ?_, by subst hg; exact Nat.zero_le _⟩,
    ?_, by subst hg; rfl, by subst hg; rfl, hcol, hn, hw⟩
  · intro k grp h'; rw [hc] at h'; cases h'
  · intro i k h'; rw [hb] at h'; cases h'
  · have : ∀ m, hashFn g.col m = 0 := by
      intro m
      rw [hashFn_congr (f' := fun _ => none) (fun i _ => hcol i)]
      induction m with
      | zero => rfl
      | succ m ih => simp [hashFn, ih, zkey]
    rw [this 361]; subst hg; rfl

theorem push_of_release {g g' : Goban} {p : Coord} {c : Color} (e : g.push false p c = .ok g') :
    ∃ f, g.pushWthFeedback false p c = .ok f ∧ f.goban = g' := by
  unfold Goban.push at e
  obtain ⟨_, _, e⟩ := bind_eq_ok e
  obtain ⟨_, _, e⟩ := bind_eq_ok e
  obtain ⟨f, ef, e⟩ := bind_eq_ok e
  exact ⟨f, ef, Except.ok.inj e⟩

theorem AnyBoard.release {s : Size} {m : Nat} {b : Goban} (h : AnyBoard dbg s m b) : AnyBoard false s m b := by
  cases dbg with
  | false => exact h
  | true =>
    induction h with
    | new e => exact .new e
    | push _ hc e ih => exact .push ih hc ((Goban.push_le ..).ok _ e)
    | remove _ hk e ih => exact .remove ih hk ((Goban.removeChain_le ..).ok _ e)

/-- A stone on a board with an empty side: the code divides by zero. -/
theorem push_zero {g : Goban} (hz : g.size.1 = 0 ∨ g.size.2 = 0) (p : Coord) (c : Color) : g.pushWthFeedback dbg p c = panic := by
  unfold Goban.pushWthFeedback Goban.neighborsIdx oneTo2dim
  dsimp only
  rw [if_pos hz]
  rfl

theorem AnyBoard.weak {s : Size} {m : Nat} {b : Goban} (h0 : AnyBoard dbg s m b) (hh : 0 < s.1) (hw : 0 < s.2) :
    Weak b ∧ b.size = s ∧ b.chains.length ≤ m := by
  have h := h0.release
  clear h0
  induction h with
  | new e =>
    obtain ⟨h1, h2, h3, h4, h5, h6, h7⟩ := new_any e
    refine ⟨⟨h1, h2, ?_, ?_, ?_, ?_⟩, h3, by rw [h4]; exact Nat.le_refl _⟩ <;> rw [h3] <;> omega
  | push _ hc e ih =>
    obtain ⟨h1, h2, h3⟩ := ih
    obtain ⟨hp, hb⟩ := h1.rep.empty_of hc
    obtain ⟨f, ef, rfl⟩ := push_of_release e
    rcases push_release (c := _) h1 rfl hp hb with ⟨f', ef', hf⟩ | ⟨ef', _⟩
    · rw [ef] at ef'
      cases ef'
      exact ⟨hf.weak, hf.size.trans h2, by have := hf.clen; omega⟩
    · rw [ef] at ef'; cases ef'
  | remove _ hk e ih =>
    obtain ⟨h1, h2, h3⟩ := ih
    obtain ⟨gk, hk⟩ := hk
    obtain ⟨g', e', hr⟩ := remove_release h1 (chainAt_iff.1 hk)
    rw [e] at e'
    cases e'
    exact ⟨hr.weak, hr.size.trans h2, by rw [hr.clen]; exact h3⟩

theorem AnyBoard.zero {s : Size} {m : Nat} {b : Goban} (h : AnyBoard dbg s m b) (hz : s.1 = 0 ∨ s.2 = 0) :
    Goban.new s = .ok b ∧ m = 0 := by
  induction h with
  | new e => exact ⟨e, rfl⟩
  | push _ _ e ih =>
    unfold Goban.push at e
    obtain ⟨_, _, e⟩ := bind_eq_ok e
    obtain ⟨_, _, e⟩ := bind_eq_ok e
    rw [push_zero (by rw [(new_any ih.1).2.2.1]; exact hz)] at e
    cases e
  | remove _ hk _ ih =>
    obtain ⟨_, hk⟩ := hk
    unfold Groups.chainAt at hk
    rw [(new_any ih.1).2.2.2.1] at hk
    cases hk

/-! ### Games -/

theorem AnyGame.release {s : Size} {b w : Nat} {g : Game} (h : AnyGame dbg s b w g) : AnyGame false s b w g := by
  cases dbg with
  | false => exact h
  | true =>
    induction h with
    | new hs e => exact .new hs e
    | play _ hc e ih => exact .play ih hc ((Game.play_le ..).ok _ e)
    | pass _ e ih => exact .pass ih ((Game.play_le ..).ok _ e)
    | resign _ e ih => exact .resign ih ((Game.play_le ..).ok _ e)
    | resume _ ih => exact .resume ih
    | setKomi _ ih => exact .setKomi ih
    | stone _ hc e ih => exact .stone ih hc ((Goban.push_le ..).ok _ e)
    | told _ ih => exact .told ih

/-- Stones of colour `c` put, `b` black and `w` white ones having been put. -/
def putOf (b w : Nat) : Color → Nat
  | .black => b
  | .white => w

theorem AnyGame.wgame {s : Size} {b w : Nat} {g : Game} (h0 : AnyGame dbg s b w g) (hh : 0 < s.1) (hw : 0 < s.2) :
    WGame g ∧ g.goban.size = s ∧ g.goban.chains.length ≤ b + w ∧
      ∀ c, cnt g.goban.col c 361 + removedOf g.prisoners c = putOf b w c := by
  have h := h0.release
  clear h0
  induction h with
  | new hs e =>
    unfold Game.new at e
    obtain ⟨gb, e1, e⟩ := bind_eq_ok e
    cases e
    rw [hs] at e1
    obtain ⟨h1, h2, h3, h4, h5, h6, h7⟩ := new_any e1
    refine ⟨⟨⟨h1, h2, ?_, ?_, ?_, ?_⟩, (fun b hb => by cases hb), Nat.zero_le _⟩, h3, (by show gb.chains.length ≤ _; rw [h4]; exact Nat.le_refl _), ?_⟩
    · show gb.size.1 ≠ 0; rw [h3]; omega
    · show gb.size.2 ≠ 0; rw [h3]; omega
    · show gb.size.1 ≤ 19; rw [h3]; omega
    · show gb.size.2 ≤ 19; rw [h3]; omega
    · intro c
      show cnt gb.col c 361 + removedOf (0, 0) c = putOf 0 0 c
      have : cnt gb.col c 361 = 0 := by
        unfold cnt
        rw [List.countP_eq_zero]
        intro i _
        simp [h5 i]
      rw [this]
      cases c <;> rfl
  | @play b w g x y g' _ hc e ih =>
    obtain ⟨h1, h2, h3, h4⟩ := ih
    obtain ⟨hp, hb⟩ := h1.weak.rep.empty_of hc
    rcases h1.play hp hb with ⟨g'', e', hr⟩ | ⟨e', _⟩
    · rw [e] at e'
      cases e'
      refine ⟨hr.game, hr.size.trans h2, ?_, ?_⟩
      · have := hr.clen
        have ht : (if g.turn = Color.black then 1 else 0) + (if g.turn = Color.white then 1 else 0) = 1 := by
          cases g.turn <;> rfl
        omega
      · intro c
        have := hr.cnt c
        rw [← this]
        have := h4 c
        cases c <;> cases ht : g.turn <;> simp [putOf] at this ⊢ <;> omega
    · rw [e] at e'; cases e'
  | pass _ e ih =>
    obtain ⟨h1, h2, h3, h4⟩ := ih
    unfold Game.play at e
    obtain ⟨_, ha, e⟩ := bind_eq_ok e
    have := assertM_eq_ok ha
    simp only [decide_eq_true_eq] at this
    cases e
    exact ⟨⟨h1.weak, h1.hist, by show _ + 1 ≤ 2; omega⟩, h2, h3, h4⟩
  | resign _ e ih =>
    obtain ⟨h1, h2, h3, h4⟩ := ih
    cases e
    exact ⟨⟨h1.weak, h1.hist, h1.passes⟩, h2, h3, h4⟩
  | resume _ ih =>
    obtain ⟨h1, h2, h3, h4⟩ := ih
    exact ⟨⟨h1.weak, h1.hist, Nat.zero_le _⟩, h2, h3, h4⟩
  | setKomi _ ih =>
    obtain ⟨h1, h2, h3, h4⟩ := ih
    exact ⟨⟨h1.weak, h1.hist, h1.passes⟩, h2, h3, h4⟩
  | @stone b w g p c bd _ hc e ih =>
    obtain ⟨h1, h2, h3, h4⟩ := ih
    obtain ⟨hp, hb⟩ := h1.weak.rep.empty_of hc
    obtain ⟨f, ef, rfl⟩ := push_of_release e
    rcases push_release (c := c) h1.weak rfl hp hb with ⟨f', ef', hf⟩ | ⟨ef', _⟩
    · rw [ef] at ef'
      cases ef'
      refine ⟨⟨hf.weak, fun b hb => ⟨(h1.hist b hb).1, (h1.hist b hb).2.trans hf.size.symm⟩, h1.passes⟩, hf.size.trans h2, ?_, ?_⟩
      · have := hf.clen
        have ht : (if c = Color.black then 1 else 0) + (if c = Color.white then 1 else 0) = 1 := by cases c <;> rfl
        show f.goban.chains.length ≤ _
        omega
      · intro x
        have h5 := h4 x
        show cnt f.goban.col x 361 + removedOf g.prisoners x = _
        rw [cnt_put hf.col hp (h1.weak.rep.col_none_iff.2 hb) x]
        cases x <;> cases c <;> simp [putOf] at h5 ⊢ <;> omega
    · rw [ef] at ef'; cases ef'
  | told _ ih =>
    obtain ⟨h1, h2, h3, h4⟩ := ih
    exact ⟨⟨h1.weak, h1.hist, h1.passes⟩, h2, h3, h4⟩

theorem AnyGame.zero {s : Size} {b w : Nat} {g : Game} (h : AnyGame dbg s b w g) (hz : s.1 = 0 ∨ s.2 = 0) :
    Goban.new s = .ok g.goban ∧ g.history = [] ∧ b = 0 ∧ w = 0 ∧ g.prisoners = (0, 0) := by
  induction h with
  | new hs e =>
    unfold Game.new at e
    obtain ⟨gb, e1, e⟩ := bind_eq_ok e
    cases e
    rw [hs] at e1
    exact ⟨e1, rfl, rfl, rfl, rfl⟩
  | play _ _ e ih =>
    unfold Game.play at e
    obtain ⟨_, _, e⟩ := bind_eq_ok e
    rw [push_zero (by rw [(new_any ih.1).2.2.1]; exact hz)] at e
    cases e
  | pass _ e ih =>
    unfold Game.play at e
    obtain ⟨_, ha, e⟩ := bind_eq_ok e
    cases e
    exact ih
  | resign _ e ih => cases e; exact ih
  | resume _ ih => exact ih
  | setKomi _ ih => exact ih
  | stone _ _ e ih =>
    unfold Goban.push at e
    obtain ⟨_, _, e⟩ := bind_eq_ok e
    obtain ⟨_, _, e⟩ := bind_eq_ok e
    rw [push_zero (by rw [(new_any ih.1).2.2.1]; exact hz)] at e
    cases e
  | told _ ih => exact ih

theorem play_zero {g : Game} (hz : g.goban.size.1 = 0 ∨ g.goban.size.2 = 0) (hh : g.history = []) (x y : Nat) :
    g.play dbg (.play x y) = panic := by
  unfold Game.play
  dsimp only
  rw [hh]
  show (do let f ← g.goban.pushWthFeedback dbg (x, y) g.turn; _) = _
  rw [push_zero hz]
  rfl

/-! ### Debug builds end -/

theorem Ends.getColor {g : Goban} {c : Coord} : Ends (g.getColor c) := by
  unfold Goban.getColor Goban.getColorIdx
  refine Ends.boardAt.bind (fun o _ => ?_)
  cases o with
  | none => exact .ok
  | some k => exact Ends.chainAt.bind (fun _ _ => .ok)

theorem Ends.validCoords {c : Coord} {s : Size} : Ends (validCoords dbg c s) := by
  unfold Model.validCoords neighborCoords
  exact Ends.bind (Ends.addU8.bind (fun _ _ => Ends.addU8.bind (fun _ _ => .ok))) (fun _ _ => .ok)

theorem Ends.cornerPoints {c : Coord} : Ends (cornerPoints dbg c) := by
  unfold Model.cornerPoints
  exact Ends.addU8.bind (fun _ _ => Ends.addU8.bind (fun _ _ => .ok))

theorem Ends.connectedPoints {g : Goban} {c : Coord} : Ends (g.connectedPoints dbg c) := by
  unfold Goban.connectedPoints Goban.neighborsCoords
  exact Ends.validCoords.bind (fun _ _ => Ends.mapM (fun _ => Ends.getColor.bind (fun _ _ => .ok)) _)

theorem Ends.connectedStones {g : Goban} {c : Coord} : Ends (g.connectedStones dbg c) := by
  unfold Goban.connectedStones
  exact Ends.connectedPoints.bind (fun _ _ => .ok)

theorem Ends.hasLiberties {g : Goban} {c : Coord} : Ends (g.hasLiberties dbg c) := by
  have key : ∀ l, Ends (g.firstLiberty l) := by
    intro l
    induction l with
    | nil => exact .ok
    | cons p l ih => exact Ends.getColor.bind (fun _ _ => .ite .ok ih)
  exact Ends.validCoords.bind (fun l _ => key l)

theorem Ends.anyConnectedPoint {g : Goban} {c : Coord} {f : Point → Bool} : Ends (g.anyConnectedPoint dbg c f) := by
  have key : ∀ l, Ends (g.anyConnected f l) := by
    intro l
    induction l with
    | nil => exact .ok
    | cons p l ih => exact Ends.getColor.bind (fun _ _ => .ite .ok ih)
  exact Ends.validCoords.bind (fun l _ => key l)

theorem Ends.helperCheckEye {g : Game} {c : Coord} {col : Color} : Ends (g.helperCheckEye dbg c col) := by
  unfold Game.helperCheckEye
  refine Ends.cornerPoints.bind (fun _ _ => Ends.fold (fun b a => ?_) _ _)
  unfold Game.eyeStep
  refine .ite (Ends.getColor.bind (fun o _ => ?_)) .ok
  cases o with
  | none => exact .ok
  | some d => exact .ite .ok .ok

theorem Ends.eyeCorners {g : Game} {col : Color} : ∀ l, Ends (g.eyeCorners dbg col l)
  | [] => .ok
  | c :: cs => by
    unfold Game.eyeCorners
    exact Ends.bind Ends.anyConnectedPoint (fun _ _ => .ite .ok (Ends.helperCheckEye.bind (fun _ _ => .ite .ok (Ends.eyeCorners cs))))

theorem Ends.checkEye {g : Game} {s : Stone} : Ends (g.checkEye dbg s) := by
  unfold Game.checkEye
  exact Ends.getColor.bind (fun _ _ => .ite .ok (Ends.anyConnectedPoint.bind (fun _ _ => .ite .ok
    (Ends.helperCheckEye.bind (fun _ _ => .ite .ok (.ite (Ends.eyeCorners _) .ok))))))

theorem Ends.checkKo {g : Game} {s : Stone} : Ends (g.checkKo dbg s) := by
  unfold Game.checkKo
  exact .ite (Ends.connectedGroups.bind (fun _ _ => .ok)) .ok

theorem Ends.checkSuicide {g : Game} {s : Stone} : Ends (g.checkSuicide dbg s) := by
  unfold Game.checkSuicide
  exact Ends.hasLiberties.bind (fun _ _ => .ite .ok (Ends.connectedGroups.bind (fun _ _ => .ok)))

theorem Ends.willCapture {g : Game} {c : Coord} : Ends (g.willCapture dbg c) := by
  unfold Game.willCapture
  exact Ends.connectedGroups.bind (fun _ _ => .ok)

theorem pushed_weak {g : Goban} {p : Coord} {c : Color} {f : Goban.Feedback} (h : Weak g) (hp : twoTo1dim g.size p < 361)
    (hb : g.bd (twoTo1dim g.size p) = none) (e : g.pushWthFeedback dbg p c = .ok f) : WPush g (twoTo1dim g.size p) c f := by
  have e' : g.pushWthFeedback false p c = .ok f := by
    cases dbg with
    | false => exact e
    | true => exact (Goban.pushWthFeedback_le ..).ok _ e
  rcases push_release (c := c) h rfl hp hb with ⟨f', ef, hf⟩ | ⟨ef, _⟩
  · rw [e'] at ef; cases ef; exact hf
  · rw [e'] at ef; cases ef

theorem captured_weak {g : Goban} {p : Nat} {c : Color} {f : Goban.Feedback} {s : Goban.Captures} {sui : Bool} (hf : WPush g p c f)
    (hp : p < 361) (hb : g.bd p = none) (e : f.goban.removeCapturedStonesAux dbg sui f.dead f.added = .ok s) : WMove g sui p c s := by
  have e' : f.goban.removeCapturedStonesAux false sui f.dead f.added = .ok s := by
    cases dbg with
    | false => exact e
    | true => exact (Goban.removeCapturedStonesAux_le ..).ok _ e
  obtain ⟨m, em, hm⟩ := captured_release (sui := sui) hf hp hb
  rw [e'] at em; cases em; exact hm

theorem WGame.ends_superKo {g : Game} (h : WGame g) {s : Stone} (hc : twoTo1dim g.goban.size s.coord < 361)
    (hb : g.goban.bd (twoTo1dim g.goban.size s.coord) = none) : Ends (g.checkSuperKo dbg s) := by
  unfold Game.checkSuperKo
  refine .ite .ok (Ends.willCapture.bind (fun _ _ => .ite .ok (Ends.bind ?_ (fun t et => Ends.checkKo.bind (fun _ _ => .ite .ok ?_)))))
  · unfold Game.playForVerification
    refine (Ends.push h.weak.rep h.weak.h19 h.weak.w19 hc hb).bind (fun f ef => ?_)
    exact (Ends.captured (pushed_weak h.weak hc hb ef)).bind (fun _ _ => .ok)
  · unfold Game.playForVerification at et
    obtain ⟨f, ef, et⟩ := bind_eq_ok et
    obtain ⟨m, em, et⟩ := bind_eq_ok et
    cases et
    have hm := captured_weak (pushed_weak h.weak hc hb ef) hc hb em
    obtain ⟨r, er⟩ := h.contains hm.weak hm.size
    exact .of_ok er

theorem WGame.ends_checkPointBy {g : Game} (h : WGame g) (c : Coord) (r : IllegalRules) : Ends (g.checkPointBy dbg c r) := by
  unfold Game.checkPointBy
  dsimp only
  refine Ends.getColor.bind (fun o ho => ?_)
  cases o with
  | some d => exact .ok
  | none =>
    obtain ⟨hp, hb⟩ := h.weak.rep.empty_of ho
    refine .ite .ok ?_
    refine Ends.bind (.ite Ends.checkSuicide .ok) (fun _ _ => .ite .ok ?_)
    refine Ends.bind (.ite Ends.checkKo .ok) (fun _ _ => .ite .ok ?_)
    refine Ends.bind (.ite Ends.checkEye .ok) (fun _ _ => .ite .ok ?_)
    exact Ends.bind (.ite (h.ends_superKo hp hb) .ok) (fun _ _ => .ite .ok .ok)

theorem WGame.ends_play {g : Game} (h : WGame g) {x y : Nat} (hc : twoTo1dim g.goban.size (x, y) < 361)
    (hb : g.goban.bd (twoTo1dim g.goban.size (x, y)) = none) : Ends (g.play dbg (.play x y)) := by
  obtain ⟨l, el, hl⟩ := h.insert
  unfold Game.play
  dsimp only
  rw [el, ok_bind]
  refine (Ends.push h.weak.rep h.weak.h19 h.weak.w19 hc hb).bind (fun f ef => Ends.bind ?_ (fun _ _ => .ok))
  unfold Game.removeCapturedStones
  exact (Ends.captured (pushed_weak h.weak hc hb ef)).bind (fun _ _ => .ok)

theorem WGame.played {g g' : Game} (h : WGame g) {x y : Nat} (hc : g.goban.getColor (x, y) = .ok none)
    (e : g.play dbg (.play x y) = .ok g') : WPlay g (twoTo1dim g.goban.size (x, y)) g' := by
  have e' : g.play false (.play x y) = .ok g' := by
    cases dbg with
    | false => exact e
    | true => exact (Game.play_le ..).ok _ e
  obtain ⟨hp, hb⟩ := h.weak.rep.empty_of hc
  rcases h.play hp hb with ⟨g'', e2, hr⟩ | ⟨e2, _⟩
  · rw [e'] at e2; cases e2; exact hr
  · rw [e'] at e2; cases e2

end Model
