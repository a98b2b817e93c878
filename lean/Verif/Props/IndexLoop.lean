import Verif.Props.RemoveLeft
/-!
# The loop that renumbers the points of a group

`Model/Unwind.lean` walks through the group before it writes the new index into its points. Where the walk succeeds, this leaves the same
board as the loop of the code, which writes between the steps, also when one of the writes panics.
-/

namespace Model

theorem fold_of_iterFrom {σ : Type} {dbg : Bool} {next : List Nat} {o : Nat} (body : Nat → U σ Unit) : ∀ (fuel cur : Nat) (pts : List Nat),
    Group.iterFrom dbg next o fuel cur = .ok pts → ∀ s : σ,
    Goban.iterFoldFromU dbg next o body fuel cur s = pts.foldlM (fun _ p => body p) () s := by
  intro fuel
  induction fuel with
  | zero => intro cur pts h; cases h
  | succ fuel ih =>
    intro cur pts h s
    unfold Group.iterFrom at h
    unfold Goban.iterFoldFromU
    cases e : next[cur]? with
    | none => rw [e] at h; cases h
    | some nx =>
      rw [e] at h
      dsimp only at h ⊢
      by_cases h1 : nx = o
      · rw [if_pos h1] at h ⊢
        cases h
        rw [List.foldlM_cons]
        show body cur s = EStateM.bind (body cur) (fun _ => pure ()) s
        unfold EStateM.bind
        cases body cur s <;> rfl
      · rw [if_neg h1] at h ⊢
        by_cases h2 : (dbg && nx == cur) = true
        · rw [if_pos h2] at h; cases h
        · rw [if_neg h2] at h ⊢
          cases e' : Group.iterFrom dbg next o fuel nx with
          | error f => rw [e'] at h; cases h
          | ok rest =>
            rw [e'] at h
            cases h
            rw [List.foldlM_cons]
            show EStateM.bind (body cur) _ s = EStateM.bind (body cur) _ s
            unfold EStateM.bind
            cases body cur s with
            | error f s' => rfl
            | ok a s' => exact ih nx rest e' s'

/-- C131: on every board whose groups can be walked through, renumbering the points of a group as the code does, one point at each step of
the walk, returns, panics and leaves behind what the model says. -/
theorem C131_index_loop (dbg : Bool) (k : Nat) (g : Goban) (h : ∀ ch, g.chains.chainAt k = .ok ch → ∃ pts, ch.iter dbg g.nextStone = .ok pts) :
    Goban.indexLoopU dbg k g = Goban.updateChainIndexesInBoardU dbg k g := by
  have bad : ∀ {α : Type} {f : Goban → M α} {x : Fault}, f g = .error x → rd f g = .error x g := by
    intro α f x hf
    unfold rd
    rw [hf]
  cases e : g.chains.chainAt k with
  | error f =>
    have hr : Goban.updateChainIndexesInBoardU dbg k g = .error f g := U.bind_error (bad e)
    rw [hr]
    unfold Goban.indexLoopU
    cases dbg with
    | true => exact U.bind_error (bad (by rw [if_pos rfl, e]; rfl))
    | false => exact step_rd (a := ()) rfl (U.bind_error (bad e))
  | ok ch =>
    obtain ⟨pts, hp⟩ := h ch e
    have hd : (if dbg = true then (do
        let ch ← g.chains.chainAt k
        let pts ← ch.iter dbg g.nextStone
        debugAssert dbg (pts.getLast?.map u16 == some ch.last)) else (.ok () : M Unit)) =
        debugAssert dbg (pts.getLast?.map u16 == some ch.last) := by
      cases dbg with
      | true => rw [if_pos rfl, e, ok_bind, hp, ok_bind]
      | false => rfl
    have hr : Goban.updateChainIndexesInBoardU dbg k g = (rd (fun _ : Goban => debugAssert dbg (pts.getLast?.map u16 == some ch.last)) >>= fun _ =>
        pts.foldlM (fun _ point => st (fun g : Goban => if u16 k = 65535 then panic else g.setBoard point (some (u16 k)))) ()) g :=
      step_rd e (step_rd hp rfl)
    rw [hr]
    unfold Goban.indexLoopU
    cases e2 : debugAssert dbg (pts.getLast?.map u16 == some ch.last) with
    | error x =>
      exact (U.bind_error (bad (hd.trans e2))).trans (U.bind_error (bad rfl)).symm
    | ok u =>
      exact step_rd (a := u) (hd.trans e2) (step_rd e (step_rd (a := g.nextStone) rfl (fold_of_iterFrom _ _ _ _ hp g)))

/-- C131: so it does on every board made with the public calls. -/
theorem C131_index_loop_board {dbg : Bool} {n : Dim} {m : Nat} {b : Goban} (h : Board dbg n m b) (k : Nat) :
    Goban.indexLoopU dbg k b = Goban.updateChainIndexesInBoardU dbg k b :=
  C131_index_loop dbg k b (fun ch e => by
    obtain ⟨l, hl⟩ := h.inv.1.rep.chain k ch (live_ch.1 e)
    exact ⟨l, hl.iter h.inv.1.rep.nlen⟩)

/-- C131: and in the panic of a stone that gets the record with number 65535. The first entry is not written. -/
theorem C131_index_loop_left {dbg : Bool} {g : Goban} {p : Nat} {c : Color} {lib : List Nat} (h : Rep g) (hp : p < 361)
    (hk : g.chains.length = 65535) :
    Goban.indexLoopU dbg g.chains.length (ghostBoard g p c lib) = .error .panic (ghostBoard g p c lib) := by
  have hpu : u16 p = p := u16_lt (by omega)
  have hch : (ghostBoard g p c lib).ch g.chains.length = some (Group.newWithLiberties c p lib) := by
    show ((g.chains ++ [some _])[g.chains.length]?).join = _
    simp
  have hit : (Group.newWithLiberties c p lib).iter dbg (ghostBoard g p c lib).nextStone = .ok [p] := by
    show Group.iterFrom dbg (g.nextStone.set p p) (u16 p) ((g.nextStone.set p p).length + 1) (u16 p) = _
    rw [hpu, List.length_set, h.nlen]
    exact Walk.iterFrom [] p 362 (getElem?_set_eq' (by rw [h.nlen]; exact hp)) (by simp) (by simp) (by simp)
  rw [C131_index_loop dbg _ _ (fun ch e => by
    have e := live_ch.1 e
    rw [hch] at e
    cases e
    exact ⟨_, hit⟩)]
  unfold Goban.updateChainIndexesInBoardU
  refine step_rd (by exact Goban.chainAt_ok hch) (step_rd (by exact hit) (step_rd (a := ()) (by
    simp [debugAssert, Group.newWithLiberties]) ?_))
  rw [List.foldlM_cons]
  refine U.bind_error ?_
  unfold st
  dsimp only
  rw [hk, if_pos (by decide)]
  rfl

end Model
