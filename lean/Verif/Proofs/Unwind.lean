import Verif.Model.Unwind
import Verif.Proofs.Inv
/-!
# The calls that keep their value on a panic give the results of the model
-/

namespace Model

section
variable {σ α β : Type}

theorem U.toM_rd (f : σ → M α) (s : σ) : U.toM (rd f) s = f s >>= fun a => .ok (a, s) := by
  unfold U.toM rd; cases f s <;> rfl

theorem U.toM_st (f : σ → M σ) (s : σ) : U.toM (st f) s = f s >>= fun s' => .ok ((), s') := by
  unfold U.toM st; cases f s <;> rfl

theorem U.toM_pure (a : α) (s : σ) : U.toM (pure a : U σ α) s = .ok (a, s) := rfl

theorem U.bind_apply (u : U σ α) (f : α → U σ β) (s : σ) : (u >>= f) s = match u s with
    | .ok a s' => f a s'
    | .error e s' => .error e s' := by
  show EStateM.bind u f s = _
  unfold EStateM.bind
  cases u s <;> rfl

theorem U.toM_bind (u : U σ α) (f : α → U σ β) (s : σ) : U.toM (u >>= f) s = U.toM u s >>= fun r => U.toM (f r.1) r.2 := by
  unfold U.toM
  rw [U.bind_apply]
  cases u s <;> rfl

theorem U.toM_ite {c : Prop} [Decidable c] (u v : U σ α) (s : σ) : U.toM (if c then u else v) s = if c then U.toM u s else U.toM v s := by
  split <;> rfl

/-- A loop. -/
theorem U.toM_foldlM {γ : Type} {f : α → γ → U σ α} {f' : σ × α → γ → M (σ × α)}
    (h : ∀ a x s, U.toM (f a x) s = f' (s, a) x >>= fun r => .ok (r.2, r.1)) : ∀ (l : List γ) (a : α) (s : σ),
    U.toM (l.foldlM f a) s = l.foldlM f' (s, a) >>= fun r => .ok (r.2, r.1) := by
  intro l
  induction l with
  | nil => intro a s; rfl
  | cons x l ih =>
    intro a s
    rw [List.foldlM_cons, U.toM_bind, h, List.foldlM_cons]
    cases f' (s, a) x with
    | error e => rfl
    | ok r => exact ih r.2 r.1

end

namespace Goban

theorem update_toM (dbg : Bool) (k : Nat) (g : Goban) :
    U.toM (updateChainIndexesInBoardU dbg k) g = g.updateChainIndexesInBoard dbg k >>= fun b => .ok ((), b) := by
  have hl : ∀ (l : List Nat) (g : Goban), U.toM (l.foldlM (fun _ point => st (fun g : Goban => if u16 k = 65535 then panic else
      g.setBoard point (some (u16 k)))) ()) g = l.foldlM (fun g point => if u16 k = 65535 then panic else
      g.setBoard point (some (u16 k))) g >>= fun b => .ok ((), b) := by
    intro l
    induction l with
    | nil => intro g; rfl
    | cons x l ih =>
      intro g
      rw [List.foldlM_cons, U.toM_bind, U.toM_st, List.foldlM_cons]
      cases (if u16 k = 65535 then panic else g.setBoard x (some (u16 k))) with
      | error e => rfl
      | ok b => exact ih b
  unfold updateChainIndexesInBoardU updateChainIndexesInBoard
  simp only [U.toM_bind, U.toM_rd, bind_assoc, ok_bind, hl]

theorem create_toM (dbg : Bool) (p : Nat) (c : Color) (libs : List Nat) (g : Goban) :
    U.toM (createChainU dbg p c libs) g = g.createChain dbg p c libs := by
  unfold createChainU createChain
  simp only [U.toM_bind, U.toM_rd, U.toM_st, U.toM_pure, bind_assoc, ok_bind, update_toM]

theorem setChain_twice (g : Goban) (k : Nat) (a b : Group) : (g.setChain k a).setChain k b = g.setChain k b := by
  unfold setChain
  simp

theorem setNext_lt {g b : Goban} {i v : Nat} (e : g.setNext i v = .ok b) : b.chains = g.chains := by
  unfold setNext at e
  split at e
  · cases e; rfl
  · cases e

theorem chainAt_lt {cs : Groups} {k : Nat} {a : Group} (e : cs.chainAt k = .ok a) : k < cs.length := by
  unfold Groups.chainAt at e
  split at e
  · rename_i h; exact (List.getElem?_eq_some_iff.1 h).1
  · cases e

theorem chainAt_set {g : Goban} {k : Nat} {a : Group} (h : k < g.chains.length) : (g.setChain k a).chains.chainAt k = .ok a := by
  unfold setChain Groups.chainAt
  simp [h]

theorem addStone_toM (dbg : Bool) (k p : Nat) (g : Goban) :
    U.toM (addStoneToChainU dbg k p) g = g.addStoneToChain dbg k p >>= fun b => .ok ((), b) := by
  unfold addStoneToChainU addStoneToChain
  rw [U.toM_bind, U.toM_rd]
  cases e : g.chains.chainAt k with
  | error e => rfl
  | ok grp =>
    have hlt := chainAt_lt e
    have tail : ∀ (g1 : Goban) (grp' : Group), g1.chains = g.chains →
        U.toM (do
          st (fun g => .ok (g.setChain k grp'))
          let grp ← rd (fun g => g.chains.chainAt k)
          let n ← rd (fun _ => addU16 dbg grp.numStones 1)
          st (fun g => .ok (g.setChain k { grp with numStones := n }))
          rd (fun g => if dbg then do
            let l ← ({ grp with numStones := n } : Group).iter dbg g.nextStone
            debugAssert dbg (l.getLast?.map u16 == some grp.last)
          else .ok ())) g1 = (do
          let n ← addU16 dbg grp'.numStones 1
          let g := g1.setChain k { grp' with numStones := n }
          if dbg then
            let l ← ({ grp' with numStones := n } : Group).iter dbg g.nextStone
            debugAssert dbg (l.getLast?.map u16 == some grp'.last)
          .ok g : M Goban) >>= fun b => .ok ((), b) := by
      intro g1 grp' hg
      simp only [U.toM_bind, U.toM_st, U.toM_rd, ok_bind, bind_assoc, chainAt_set (show k < g1.chains.length by rw [hg]; exact hlt),
        setChain_twice]
      cases addU16 dbg grp'.numStones 1 with
      | error e => rfl
      | ok m =>
        cases dbg with
        | false => rfl
        | true =>
          simp only [ok_bind, if_true, bind_assoc]
    simp only [ok_bind]
    by_cases hs : p < grp.origin
    · rw [if_pos hs, if_pos hs]
      cases e1 : g.setNext p grp.origin with
      | error e => simp only [U.toM_bind, U.toM_st, e1, error_bind, bind_assoc]
      | ok g1 =>
        cases e2 : g1.setNext grp.last (u16 p) with
        | error e => simp only [U.toM_bind, U.toM_st, e1, e2, error_bind, ok_bind, bind_assoc]
        | ok g2 =>
          have := tail g2 { grp with origin := u16 p } ((setNext_lt e2).trans (setNext_lt e1))
          simp only [U.toM_bind, U.toM_st, U.toM_rd, e1, e2, ok_bind, bind_assoc, pure_bind'] at this ⊢
          exact this
    · rw [if_neg hs, if_neg hs]
      cases e1 : g.setNext grp.last (u16 p) with
      | error e => simp only [U.toM_bind, U.toM_st, e1, error_bind, bind_assoc]
      | ok g1 =>
        cases e2 : g1.setNext p grp.origin with
        | error e => simp only [U.toM_bind, U.toM_st, e1, e2, error_bind, ok_bind, bind_assoc]
        | ok g2 =>
          have := tail g2 { grp with last := u16 p } ((setNext_lt e2).trans (setNext_lt e1))
          simp only [U.toM_bind, U.toM_st, U.toM_rd, e1, e2, ok_bind, bind_assoc, pure_bind'] at this ⊢
          exact this

theorem swapNext_setChain (g : Goban) (k a b : Nat) (c : Group) :
    (g.setChain k c).swapNext a b = g.swapNext a b >>= fun g => .ok (g.setChain k c) := by
  unfold swapNext setChain
  dsimp only
  cases g.nextStone[a]? <;> cases g.nextStone[b]? <;> rfl

theorem merge_toM (dbg : Bool) (j k : Nat) (g : Goban) :
    U.toM (mergeStringsU dbg j k) g = g.mergeStrings dbg j k >>= fun b => .ok ((), b) := by
  unfold mergeStringsU mergeStrings
  simp only [U.toM_bind, U.toM_st, U.toM_rd, ok_bind, bind_assoc, update_toM, swapNext_setChain, setChain_twice]

theorem take_toM (dbg : Bool) (p : Nat) (dead : List Nat) (k : Nat) (g : Goban) :
    U.toM (takeLibertyU dbg p dead k) g = takeLiberty dbg p (g, dead) k >>= fun r => .ok (r.2, r.1) := by
  unfold takeLibertyU takeLiberty
  simp only [U.toM_bind, U.toM_st, U.toM_rd, U.toM_pure, ok_bind, bind_assoc]

theorem mergeStep_toM (dbg : Bool) (t k : Nat) (g : Goban) :
    U.toM (mergeStepU dbg t k) g = mergeStep dbg (g, t) k >>= fun r => .ok (r.2, r.1) := by
  unfold mergeStepU mergeStep
  simp only [U.toM_bind, U.toM_rd, ok_bind, bind_assoc]
  congr 1; funext ca
  congr 1; funext ct
  split
  · simp only [U.toM_bind, U.toM_pure, ok_bind, bind_assoc, merge_toM]
  · simp only [U.toM_bind, U.toM_pure, ok_bind, bind_assoc, merge_toM]

theorem attach_toM (dbg : Bool) (p : Nat) (c : Color) (same libs : List Nat) (g : Goban) :
    U.toM (attachU dbg p c same libs) g = g.attach dbg p c same libs := by
  rcases same with _ | ⟨a, _ | ⟨b, rest⟩⟩
  · exact create_toM dbg p c libs g
  · unfold attachU attach
    simp only [U.toM_bind, U.toM_st, U.toM_pure, ok_bind, bind_assoc, addStone_toM]
    congr 1; funext c1
    congr 1; funext c2
    congr 1; funext c3
    congr 1; funext g1
    split <;> rfl
  · unfold attachU attach
    simp only [U.toM_bind, U.toM_st, U.toM_pure, ok_bind, bind_assoc, create_toM, U.toM_foldlM (mergeStep_toM dbg)]

theorem pushWthFeedback_toM (dbg : Bool) (p : Coord) (c : Color) (g : Goban) :
    U.toM (pushWthFeedbackU dbg p c) g = g.pushWthFeedback dbg p c >>= fun f => .ok ((f.dead, f.added), f.goban) := by
  unfold pushWthFeedbackU pushWthFeedback
  simp only [U.toM_bind, U.toM_st, U.toM_rd, U.toM_pure, ok_bind, bind_assoc, attach_toM, U.toM_foldlM (take_toM dbg (twoTo1dim g.size p))]
  congr 1; funext nbs
  congr 1; funext a
  congr 1; funext r
  congr 1; funext t
  congr 1; funext z
  cases dbg with
  | false => rfl
  | true => simp only [if_true, bind_assoc, ok_bind]

theorem push_toM (dbg : Bool) (p : Coord) (c : Color) (g : Goban) :
    U.toM (pushU dbg p c) g = g.push dbg p c >>= fun b => .ok ((), b) := by
  unfold pushU push
  simp only [U.toM_bind, U.toM_rd, U.toM_pure, ok_bind, bind_assoc, pushWthFeedback_toM]

theorem iterFoldFrom_toM {σ : Type} {dbg : Bool} {body : Nat → U σ Unit} {body' : σ → Nat → M σ}
    (h : ∀ i s, U.toM (body i) s = body' s i >>= fun s' => .ok ((), s')) (next : List Nat) (o : Nat) : ∀ (fuel cur : Nat) (s : σ),
    U.toM (iterFoldFromU dbg next o body fuel cur) s = Group.iterFoldFrom dbg next o body' fuel cur s >>= fun s' => .ok ((), s') := by
  intro fuel
  induction fuel with
  | zero => intro cur s; rfl
  | succ fuel ih =>
    intro cur s
    unfold iterFoldFromU Group.iterFoldFrom
    cases next[cur]? with
    | none => rfl
    | some nx =>
      dsimp only
      split
      · exact h cur s
      · split
        · rfl
        · simp only [U.toM_bind, h, ih, bind_assoc, ok_bind]

theorem removeStone_toM (dbg : Bool) (k : Nat) (c : Color) (i : Nat) (g : Goban) :
    U.toM (removeStoneStepU dbg k c i) g = g.removeStoneStep dbg k c i >>= fun b => .ok ((), b) := by
  have hl : ∀ (l : List Nat) (g : Goban), U.toM (l.foldlM (fun _ n => st (fun g : Goban => do
      let ch ← g.chains.chainAt n
      let ch ← ch.addLiberty dbg i
      .ok (g.setChain n ch))) ()) g = l.foldlM (fun (g : Goban) n => do
      let ch ← g.chains.chainAt n
      let ch ← ch.addLiberty dbg i
      .ok (g.setChain n ch)) g >>= fun b => .ok ((), b) := by
    intro l
    induction l with
    | nil => intro g; rfl
    | cons x l ih =>
      intro g
      simp only [List.foldlM_cons, U.toM_bind, U.toM_st, bind_assoc, ok_bind, ih]
  unfold removeStoneStepU removeStoneStep
  simp only [U.toM_bind, U.toM_rd, U.toM_st, bind_assoc, ok_bind, hl]

theorem removeChain_toM (dbg : Bool) (k : Nat) (g : Goban) :
    U.toM (removeChainU dbg k) g = g.removeChain dbg k >>= fun b => .ok ((), b) := by
  unfold removeChainU removeChain Group.iterFold
  simp only [U.toM_bind, U.toM_rd, U.toM_st, bind_assoc, ok_bind, iterFoldFrom_toM (fun i s => removeStone_toM dbg k _ i s)]

theorem captureStep_toM (dbg o : Bool) (s : (Nat × Nat) × Option Coord) (k : Nat) (g : Goban) :
    U.toM (captureStepU dbg o s k) g = captureStep dbg o ⟨s.1, s.2, g⟩ k >>= fun r => .ok ((r.removed, r.ko), r.goban) := by
  unfold captureStepU captureStep
  simp only [U.toM_bind, U.toM_rd, U.toM_pure, bind_assoc, ok_bind, removeChain_toM]
  congr 1; funext ch
  split
  · simp only [bind_assoc, ok_bind]
  · simp only [bind_assoc, ok_bind]

theorem captured_toM (dbg sa : Bool) (dead : List Nat) (added : Nat) (g : Goban) :
    U.toM (removeCapturedStonesAuxU dbg sa dead added) g =
      g.removeCapturedStonesAux dbg sa dead added >>= fun r => .ok ((r.removed, r.ko), r.goban) := by
  have hl : ∀ (o : Bool) (l : List Nat) (s : (Nat × Nat) × Option Coord) (g : Goban), U.toM (l.foldlM (captureStepU dbg o) s) g =
      l.foldlM (captureStep dbg o) ⟨s.1, s.2, g⟩ >>= fun r => .ok ((r.removed, r.ko), r.goban) := by
    intro o l
    induction l with
    | nil => intro s g; rfl
    | cons x l ih =>
      intro s g
      simp only [List.foldlM_cons, U.toM_bind, captureStep_toM, bind_assoc, ok_bind, ih]
  unfold removeCapturedStonesAuxU removeCapturedStonesAux
  simp only [U.toM_bind, U.toM_rd, bind_assoc, ok_bind, hl]
  congr 1; funext r
  congr 1; funext ch
  split
  · simp only [U.toM_bind, U.toM_pure, bind_assoc, ok_bind, removeChain_toM]
  · rfl

end Goban

namespace Game

theorem onGoban_toM {α : Type} (u : U Goban α) (g : Game) :
    U.toM (onGoban u) g = U.toM u g.goban >>= fun r => .ok (r.1, { g with goban := r.2 }) := by
  unfold U.toM onGoban
  cases u g.goban <;> rfl

theorem removeCaptured_toM (dbg : Bool) (dead : List Nat) (added : Nat) (g : Game) :
    U.toM (removeCapturedStonesU dbg dead added) g = g.removeCapturedStones dbg dead added >>= fun g' => .ok ((), g') := by
  unfold removeCapturedStonesU removeCapturedStones
  simp only [U.toM_bind, U.toM_rd, U.toM_st, bind_assoc, ok_bind, onGoban_toM, Goban.captured_toM]

theorem play_toM (dbg : Bool) (m : Move) (g : Game) : U.toM (playU dbg m) g = g.play dbg m >>= fun g' => .ok ((), g') := by
  cases m with
  | pass =>
    unfold playU play
    simp only [U.toM_bind, U.toM_st, U.toM_rd, ok_bind, bind_assoc]
  | play x y =>
    unfold playU play
    simp only [U.toM_bind, U.toM_st, U.toM_rd, ok_bind, bind_assoc, onGoban_toM, Goban.pushWthFeedback_toM, removeCaptured_toM]
  | resign player => rfl

theorem tryPlay_toM (dbg : Bool) (m : Move) (g : Game) : U.toM (tryPlayU dbg m) g = g.tryPlay dbg m := by
  unfold tryPlayU tryPlay
  rw [U.toM_bind, U.toM_rd, ok_bind, ok_bind]
  dsimp only
  split
  · rfl
  · cases m with
    | pass => simp only [U.toM_bind, U.toM_pure, play_toM, ok_bind, bind_assoc]
    | resign player => simp only [U.toM_bind, U.toM_pure, play_toM, ok_bind, bind_assoc]
    | play x y =>
      simp only [U.toM_bind, U.toM_rd, ok_bind, bind_assoc]
      congr 1; funext c
      split
      · rfl
      · simp only [U.toM_bind, U.toM_rd, ok_bind, bind_assoc]
        congr 1; funext o
        cases o with
        | some e => rfl
        | none => simp only [U.toM_bind, U.toM_pure, play_toM, ok_bind, bind_assoc]

end Game
end Model
