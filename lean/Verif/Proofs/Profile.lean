import Verif.Model.DeadStones
import Verif.Model.Builder
import Verif.Model.Sgf
import Verif.Model.Territory
import Verif.Spec.Observe
/-!
# Debug and release builds

`Le x y`: whenever `x` returns a value, `y` returns the same value. Every function of the model that knows the build profile is in
this relation to itself, debug build on the left, for all arguments.
-/

namespace Model

/-- Whenever `x` returns a value, `y` returns the same value. -/
structure Le {α : Type} (x y : M α) : Prop where
  ok : ∀ r, x = .ok r → y = .ok r

variable {α β : Type}

theorem Le.refl (x : M α) : Le x x := ⟨fun _ h => h⟩

theorem Le.panic {y : M α} : Le Model.panic y := ⟨fun _ h => by cases h⟩

theorem Le.bind {x y : M α} {f g : α → M β} (h : Le x y) (hf : ∀ a, Le (f a) (g a)) : Le (x >>= f) (y >>= g) := by
  refine ⟨fun r e => ?_⟩
  cases hx : x with
  | error e' => rw [hx] at e; cases e
  | ok a => rw [hx, ok_bind] at e; rw [h.ok a hx, ok_bind]; exact (hf a).ok r e

/-- The left side may do more checks. -/
theorem Le.drop {x : M α} {f : α → M β} {y : M β} (hf : ∀ a, Le (f a) y) : Le (x >>= f) y := by
  refine ⟨fun r e => ?_⟩
  cases hx : x with
  | error e' => rw [hx] at e; cases e
  | ok a => rw [hx, ok_bind] at e; exact (hf a).ok r e

theorem Le.foldlM {f g : β → α → M β} (h : ∀ b a, Le (f b a) (g b a)) : ∀ (l : List α) (b : β), Le (l.foldlM f b) (l.foldlM g b)
  | [], _ => .refl _
  | a :: l, b => by
    rw [List.foldlM_cons, List.foldlM_cons]
    exact .bind (h b a) (fun b' => Le.foldlM h l b')

theorem Le.mapM {f g : α → M β} (h : ∀ a, Le (f a) (g a)) : ∀ l : List α, Le (l.mapM f) (l.mapM g)
  | [] => .refl _
  | a :: l => by
    rw [List.mapM_cons, List.mapM_cons]
    exact .bind (h a) (fun b => .bind (Le.mapM h l) (fun _ => .refl _))

theorem Le.ite {c : Prop} [Decidable c] {a b a' b' : M α} (h : Le a a') (h' : Le b b') :
    Le (if c then a else b) (if c then a' else b') := by
  split
  · exact h
  · exact h'

/-- Closes a goal about one call of a function treated before. -/
syntax "le_base" : tactic
macro_rules | `(tactic| le_base) => `(tactic| with_reducible exact Le.refl _)

/-- Goes through a function body. -/
macro "le" : tactic => `(tactic| repeat' (first
  | le_base
  | refine Le.bind ?_ (fun _ => ?_)
  | refine Le.foldlM (fun _ _ => ?_) _ _
  | refine Le.mapM (fun _ => ?_) _
  | refine Le.ite ?_ ?_
  | split))

theorem debugAssert_le (b : Bool) : Le (debugAssert true b) (debugAssert false b) := by
  cases b
  · exact .panic
  · exact .refl _
macro_rules | `(tactic| le_base) => `(tactic| with_reducible exact debugAssert_le ..)

theorem addU8_le (x y : Nat) : Le (addU8 true x y) (addU8 false x y) := by unfold addU8; exact .ite (.refl _) .panic
macro_rules | `(tactic| le_base) => `(tactic| with_reducible exact addU8_le ..)
theorem mulU8_le (x y : Nat) : Le (mulU8 true x y) (mulU8 false x y) := by unfold mulU8; exact .ite (.refl _) .panic
macro_rules | `(tactic| le_base) => `(tactic| with_reducible exact mulU8_le ..)
theorem subU8_le (x y : Nat) : Le (subU8 true x y) (subU8 false x y) := by unfold subU8; exact .ite (.refl _) .panic
macro_rules | `(tactic| le_base) => `(tactic| with_reducible exact subU8_le ..)
theorem addU16_le (x y : Nat) : Le (addU16 true x y) (addU16 false x y) := by unfold addU16; exact .ite (.refl _) .panic
macro_rules | `(tactic| le_base) => `(tactic| with_reducible exact addU16_le ..)

theorem neighborCoords_le (c : Coord) : Le (neighborCoords true c) (neighborCoords false c) := by unfold neighborCoords; le
macro_rules | `(tactic| le_base) => `(tactic| with_reducible exact neighborCoords_le ..)
theorem validCoords_le (c : Coord) (s : Size) : Le (validCoords true c s) (validCoords false c s) := by unfold validCoords; le
macro_rules | `(tactic| le_base) => `(tactic| with_reducible exact validCoords_le ..)
theorem cornerPoints_le (c : Coord) : Le (cornerPoints true c) (cornerPoints false c) := by unfold cornerPoints; le
macro_rules | `(tactic| le_base) => `(tactic| with_reducible exact cornerPoints_le ..)

theorem removeLiberty_le (g : Group) (i : Nat) : Le (g.removeLiberty true i) (g.removeLiberty false i) := by
  unfold Group.removeLiberty
  exact .drop (fun _ => .drop (fun _ => .refl _))
macro_rules | `(tactic| le_base) => `(tactic| with_reducible exact removeLiberty_le ..)
theorem addLiberty_le (g : Group) (i : Nat) : Le (g.addLiberty true i) (g.addLiberty false i) := by
  unfold Group.addLiberty
  exact .drop (fun _ => .drop (fun _ => .refl _))
macro_rules | `(tactic| le_base) => `(tactic| with_reducible exact addLiberty_le ..)
theorem addLiberties_le (g : Group) (is : List Nat) : Le (g.addLiberties true is) (g.addLiberties false is) := by
  unfold Group.addLiberties; le

theorem iterFrom_le (ns : List Nat) (o : Nat) : ∀ fuel cur, Le (Group.iterFrom true ns o fuel cur) (Group.iterFrom false ns o fuel cur)
  | 0, _ => .refl _
  | fuel + 1, cur => by
    unfold Group.iterFrom
    cases ns[cur]? with
    | none => exact .refl _
    | some nx =>
      refine .ite (.refl _) ?_
      simp only [Bool.true_and, Bool.false_and, Bool.false_eq_true, if_false]
      split
      · exact .panic
      · exact .bind (iterFrom_le ns o fuel nx) (fun _ => .refl _)
theorem iter_le (g : Group) (ns : List Nat) : Le (g.iter true ns) (g.iter false ns) := iterFrom_le ..
macro_rules | `(tactic| le_base) => `(tactic| with_reducible exact iter_le ..)

theorem iterFoldFrom_le {σ : Type} {f f' : σ → Nat → M σ} (h : ∀ s i, Le (f s i) (f' s i)) (ns : List Nat) (o : Nat) :
    ∀ fuel cur s, Le (Group.iterFoldFrom true ns o f fuel cur s) (Group.iterFoldFrom false ns o f' fuel cur s)
  | 0, _, _ => .refl _
  | fuel + 1, cur, s => by
    unfold Group.iterFoldFrom
    cases ns[cur]? with
    | none => exact .refl _
    | some nx =>
      refine .ite (h s cur) ?_
      simp only [Bool.true_and, Bool.false_and, Bool.false_eq_true, if_false]
      split
      · exact .panic
      · exact .bind (h s cur) (fun s' => iterFoldFrom_le h ns o fuel nx s')
theorem iterFold_le {σ : Type} {f f' : σ → Nat → M σ} (h : ∀ s i, Le (f s i) (f' s i)) (g : Group) (ns : List Nat) (s : σ) :
    Le (g.iterFold true ns f s) (g.iterFold false ns f' s) := iterFoldFrom_le h ..

namespace Goban
variable (g : Goban)

theorem neighborsCoords_le (c : Coord) : Le (g.neighborsCoords true c) (g.neighborsCoords false c) := by unfold neighborsCoords; le
macro_rules | `(tactic| le_base) => `(tactic| with_reducible exact neighborsCoords_le ..)
theorem neighborsIdx_le (i : Nat) : Le (g.neighborsIdx true i) (g.neighborsIdx false i) := by unfold neighborsIdx; le
macro_rules | `(tactic| le_base) => `(tactic| with_reducible exact neighborsIdx_le ..)
theorem iterStones_le (k : Nat) : Le (g.iterStones true k) (g.iterStones false k) := by unfold iterStones; le
macro_rules | `(tactic| le_base) => `(tactic| with_reducible exact iterStones_le ..)
theorem checkIntegrityRen_le (k : Nat) : Le (g.checkIntegrityRen true k) (g.checkIntegrityRen false k) := by
  unfold checkIntegrityRen; le
theorem updateChainIndexesInBoard_le (k : Nat) : Le (g.updateChainIndexesInBoard true k) (g.updateChainIndexesInBoard false k) := by
  unfold updateChainIndexesInBoard; le
macro_rules | `(tactic| le_base) => `(tactic| with_reducible exact updateChainIndexesInBoard_le ..)
theorem createChain_le (o : Nat) (c : Color) (l : List Nat) : Le (g.createChain true o c l) (g.createChain false o c l) := by
  unfold createChain; le
macro_rules | `(tactic| le_base) => `(tactic| with_reducible exact createChain_le ..)
theorem addStoneToChain_le (k s : Nat) : Le (g.addStoneToChain true k s) (g.addStoneToChain false k s) := by
  unfold addStoneToChain
  refine .bind (.refl _) (fun _ => .ite ?_ ?_) <;>
  exact .bind (.refl _) (fun _ => .bind (.refl _) (fun _ => .bind (.refl _) (fun _ => .bind (addU16_le ..) (fun _ =>
    .drop (fun _ => .drop (fun _ => .refl _))))))
macro_rules | `(tactic| le_base) => `(tactic| with_reducible exact addStoneToChain_le ..)
theorem mergeStrings_le (a b : Nat) : Le (g.mergeStrings true a b) (g.mergeStrings false a b) := by unfold mergeStrings; le
macro_rules | `(tactic| le_base) => `(tactic| with_reducible exact mergeStrings_le ..)
theorem takeLiberty_le (p : Nat) (st : Goban × List Nat) (r : Nat) : Le (takeLiberty true p st r) (takeLiberty false p st r) := by
  unfold takeLiberty; le
macro_rules | `(tactic| le_base) => `(tactic| with_reducible exact takeLiberty_le ..)
theorem mergeStep_le (st : Goban × Nat) (a : Nat) : Le (mergeStep true st a) (mergeStep false st a) := by unfold mergeStep; le
macro_rules | `(tactic| le_base) => `(tactic| with_reducible exact mergeStep_le ..)
theorem attach_le (p : Nat) (c : Color) (same libs : List Nat) : Le (g.attach true p c same libs) (g.attach false p c same libs) := by
  unfold attach; le
macro_rules | `(tactic| le_base) => `(tactic| with_reducible exact attach_le ..)
theorem pushWthFeedback_le (p : Coord) (c : Color) : Le (g.pushWthFeedback true p c) (g.pushWthFeedback false p c) := by
  unfold pushWthFeedback
  refine .bind (by le) (fun _ => .bind (.refl _) (fun _ => .bind (by le) (fun _ => .bind (by le) (fun _ => .bind (.refl _) (fun _ => ?_)))))
  exact .drop (fun _ => .refl _)
macro_rules | `(tactic| le_base) => `(tactic| with_reducible exact pushWthFeedback_le ..)
theorem push_le (p : Coord) (c : Color) : Le (g.push true p c) (g.push false p c) := by unfold push; le
macro_rules | `(tactic| le_base) => `(tactic| with_reducible exact push_le ..)
theorem pushStone_le (s : Stone) : Le (g.pushStone true s) (g.pushStone false s) := push_le ..
macro_rules | `(tactic| le_base) => `(tactic| with_reducible exact pushStone_le ..)
theorem pushMany_le (ps : List Coord) (c : Color) : Le (g.pushMany true ps c) (g.pushMany false ps c) := by unfold pushMany; le
macro_rules | `(tactic| le_base) => `(tactic| with_reducible exact pushMany_le ..)
theorem connectedGroupsIdx_le (i : Nat) : Le (g.connectedGroupsIdx true i) (g.connectedGroupsIdx false i) := by
  unfold connectedGroupsIdx; le
macro_rules | `(tactic| le_base) => `(tactic| with_reducible exact connectedGroupsIdx_le ..)
theorem connectedGroups_le (c : Coord) : Le (g.connectedGroups true c) (g.connectedGroups false c) := by unfold connectedGroups; le
macro_rules | `(tactic| le_base) => `(tactic| with_reducible exact connectedGroups_le ..)
theorem removeStoneStep_le (k : Nat) (c : Color) (i : Nat) : Le (removeStoneStep true k c g i) (removeStoneStep false k c g i) := by
  unfold removeStoneStep; le
macro_rules | `(tactic| le_base) => `(tactic| with_reducible exact removeStoneStep_le ..)
theorem removeChain_le (k : Nat) : Le (g.removeChain true k) (g.removeChain false k) := by
  unfold removeChain
  refine .bind (.refl _) (fun ch => .bind (iterFold_le (fun s i => removeStoneStep_le s k ch.color i) ..) (fun _ => ?_))
  le
macro_rules | `(tactic| le_base) => `(tactic| with_reducible exact removeChain_le ..)
theorem captureStep_le (o : Bool) (s : Captures) (k : Nat) : Le (captureStep true o s k) (captureStep false o s k) := by
  unfold captureStep; le
macro_rules | `(tactic| le_base) => `(tactic| with_reducible exact captureStep_le ..)
theorem removeCapturedStonesAux_le (s : Bool) (d : List Nat) (a : Nat) :
    Le (g.removeCapturedStonesAux true s d a) (g.removeCapturedStonesAux false s d a) := by unfold removeCapturedStonesAux; le
macro_rules | `(tactic| le_base) => `(tactic| with_reducible exact removeCapturedStonesAux_le ..)
theorem ofSliceStep_le (s : Nat) (e : MaybeColor × Nat) : Le (ofSliceStep true s g e) (ofSliceStep false s g e) := by
  unfold ofSliceStep; le
macro_rules | `(tactic| le_base) => `(tactic| with_reducible exact ofSliceStep_le ..)
theorem ofSlice_le (l : List MaybeColor) : Le (ofSlice true l) (ofSlice false l) := by unfold ofSlice; le
theorem chainStonesIdx_le (k : Nat) : Le (g.chainStonesIdx true k) (g.chainStonesIdx false k) := by unfold chainStonesIdx; le
macro_rules | `(tactic| le_base) => `(tactic| with_reducible exact chainStonesIdx_le ..)
theorem chainStonesCoord_le (c : Coord) : Le (g.chainStonesCoord true c) (g.chainStonesCoord false c) := chainStonesIdx_le ..
theorem connectedPoints_le (c : Coord) : Le (g.connectedPoints true c) (g.connectedPoints false c) := by unfold connectedPoints; le
macro_rules | `(tactic| le_base) => `(tactic| with_reducible exact connectedPoints_le ..)
theorem connectedStones_le (c : Coord) : Le (g.connectedStones true c) (g.connectedStones false c) := by unfold connectedStones; le
macro_rules | `(tactic| le_base) => `(tactic| with_reducible exact connectedStones_le ..)
theorem getCoordsByColor_le (c : MaybeColor) : Le (g.getCoordsByColor true c) (g.getCoordsByColor false c) := by
  unfold getCoordsByColor; le
macro_rules | `(tactic| le_base) => `(tactic| with_reducible exact getCoordsByColor_le ..)
theorem getStonesByColor_le (c : MaybeColor) : Le (g.getStonesByColor true c) (g.getStonesByColor false c) := by
  unfold getStonesByColor; le
theorem getLiberties_le (c : Coord) : Le (g.getLiberties true c) (g.getLiberties false c) := by unfold getLiberties; le
macro_rules | `(tactic| le_base) => `(tactic| with_reducible exact getLiberties_le ..)
theorem anyConnectedPoint_le (c : Coord) (f : Point → Bool) :
    Le (g.anyConnectedPoint true c f) (g.anyConnectedPoint false c f) := by unfold anyConnectedPoint; le
theorem anyConnectedStone_le (c : Coord) (f : Stone → Bool) :
    Le (g.anyConnectedStone true c f) (g.anyConnectedStone false c f) := anyConnectedPoint_le ..
theorem hasLiberties_le (c : Coord) : Le (g.hasLiberties true c) (g.hasLiberties false c) := by unfold hasLiberties; le
macro_rules | `(tactic| le_base) => `(tactic| with_reducible exact hasLiberties_le ..)

theorem explore_le (c : MaybeColor) : ∀ fuel e t, Le (explore true g c fuel e t) (explore false g c fuel e t)
  | 0, _, _ => .refl _
  | _ + 1, _, [] => .refl _
  | fuel + 1, e, s :: rest => by
    unfold explore
    exact .bind (connectedPoints_le ..) (fun _ => explore_le c fuel _ _)
macro_rules | `(tactic| le_base) => `(tactic| with_reducible exact explore_le ..)
theorem groupFromPoint_le (p : Point) : Le (g.groupFromPoint true p) (g.groupFromPoint false p) := by unfold groupFromPoint; le
macro_rules | `(tactic| le_base) => `(tactic| with_reducible exact groupFromPoint_le ..)
theorem chainsFromStones_le (l : List Point) : Le (g.chainsFromStones true l) (g.chainsFromStones false l) := by
  unfold chainsFromStones; le
macro_rules | `(tactic| le_base) => `(tactic| with_reducible exact chainsFromStones_le ..)
theorem border_le : ∀ l n, Le (border true g l n) (border false g l n)
  | [], _ => .refl _
  | e :: es, n => by
    unfold border
    refine .bind (connectedPoints_le ..) (fun ps => ?_)
    cases borderPoints ps n with
    | none => exact .refl _
    | some n => exact border_le es n
macro_rules | `(tactic| le_base) => `(tactic| with_reducible exact border_le ..)
theorem territoryStep_le (ord : List Point → List Point) (a : List Point × List Point) (l : List Point) :
    Le (g.territoryStep true ord a l) (g.territoryStep false ord a l) := by unfold territoryStep; le
macro_rules | `(tactic| le_base) => `(tactic| with_reducible exact territoryStep_le ..)
theorem territories_le (ord : List Point → List Point) : Le (g.territories true ord) (g.territories false ord) := by
  unfold territories; le
macro_rules | `(tactic| le_base) => `(tactic| with_reducible exact territories_le ..)
theorem calculateTerritories_le (ord : List Point → List Point) :
    Le (g.calculateTerritories true ord) (g.calculateTerritories false ord) := by unfold calculateTerritories; le
macro_rules | `(tactic| le_base) => `(tactic| with_reducible exact calculateTerritories_le ..)

end Goban

namespace Game
variable (g : Game)

theorem pseudoLegalsVec_le : Le (g.pseudoLegalsVec true) (g.pseudoLegalsVec false) := by unfold pseudoLegalsVec; le
theorem removeCapturedStones_le (d : List Nat) (a : Nat) : Le (g.removeCapturedStones true d a) (g.removeCapturedStones false d a) := by
  unfold removeCapturedStones; exact .bind (Goban.removeCapturedStonesAux_le ..) (fun _ => .refl _)
macro_rules | `(tactic| le_base) => `(tactic| with_reducible exact removeCapturedStones_le ..)
theorem play_le (m : Move) : Le (g.play true m) (g.play false m) := by
  cases m with
  | pass => exact .refl _
  | resign _ => exact .refl _
  | play x y =>
    unfold play
    exact .bind (.refl _) (fun _ => .bind (Goban.pushWthFeedback_le ..) (fun _ => .bind (removeCapturedStones_le ..) (fun _ => .refl _)))
macro_rules | `(tactic| le_base) => `(tactic| with_reducible exact play_le ..)
theorem playForVerification_le (c : Coord) : Le (g.playForVerification true c) (g.playForVerification false c) := by
  unfold playForVerification
  exact .bind (Goban.pushWthFeedback_le ..) (fun _ => .bind (Goban.removeCapturedStonesAux_le ..) (fun _ => .refl _))
macro_rules | `(tactic| le_base) => `(tactic| with_reducible exact playForVerification_le ..)
theorem willCapture_le (c : Coord) : Le (g.willCapture true c) (g.willCapture false c) := by
  unfold willCapture; exact .bind (Goban.connectedGroups_le ..) (fun _ => .refl _)
macro_rules | `(tactic| le_base) => `(tactic| with_reducible exact willCapture_le ..)
theorem helperCheckEye_le (p : Coord) (c : Color) : Le (g.helperCheckEye true p c) (g.helperCheckEye false p c) := by
  unfold helperCheckEye; le
macro_rules | `(tactic| le_base) => `(tactic| with_reducible exact helperCheckEye_le ..)
theorem eyeCorners_le (c : Color) : ∀ l, Le (eyeCorners true g c l) (eyeCorners false g c l)
  | [] => .refl _
  | p :: l => by
    unfold eyeCorners
    refine .bind (Goban.anyConnectedStone_le ..) (fun _ => .ite (.refl _) (.bind (helperCheckEye_le ..) (fun _ => .ite (.refl _) ?_)))
    exact eyeCorners_le c l
macro_rules | `(tactic| le_base) => `(tactic| with_reducible exact eyeCorners_le ..)
theorem checkEye_le (s : Stone) : Le (g.checkEye true s) (g.checkEye false s) := by
  unfold checkEye
  refine .bind (.refl _) (fun _ => .ite (.refl _) (.bind (Goban.anyConnectedPoint_le ..) (fun _ => .ite (.refl _)
    (.bind (helperCheckEye_le ..) (fun _ => .ite (.refl _) (.ite (eyeCorners_le ..) (.refl _)))))))
macro_rules | `(tactic| le_base) => `(tactic| with_reducible exact checkEye_le ..)
theorem checkKo_le (s : Stone) : Le (g.checkKo true s) (g.checkKo false s) := by
  unfold checkKo; exact .ite (.bind (Goban.connectedGroups_le ..) (fun _ => .refl _)) (.refl _)
macro_rules | `(tactic| le_base) => `(tactic| with_reducible exact checkKo_le ..)
theorem checkSuperKo_le (s : Stone) : Le (g.checkSuperKo true s) (g.checkSuperKo false s) := by
  unfold checkSuperKo; le
macro_rules | `(tactic| le_base) => `(tactic| with_reducible exact checkSuperKo_le ..)
theorem checkSuicide_le (s : Stone) : Le (g.checkSuicide true s) (g.checkSuicide false s) := by
  unfold checkSuicide
  exact .bind (Goban.hasLiberties_le ..) (fun _ => .ite (.refl _) (.bind (Goban.connectedGroups_le ..) (fun _ => .refl _)))
macro_rules | `(tactic| le_base) => `(tactic| with_reducible exact checkSuicide_le ..)
theorem checkPointBy_le (c : Coord) (r : IllegalRules) : Le (g.checkPointBy true c r) (g.checkPointBy false c r) := by
  unfold checkPointBy; le
macro_rules | `(tactic| le_base) => `(tactic| with_reducible exact checkPointBy_le ..)
theorem checkPoint_le (c : Coord) : Le (g.checkPoint true c) (g.checkPoint false c) := checkPointBy_le ..
macro_rules | `(tactic| le_base) => `(tactic| with_reducible exact checkPoint_le ..)
theorem legalsBy_le (r : IllegalRules) : Le (g.legalsBy true r) (g.legalsBy false r) := by unfold legalsBy; le
macro_rules | `(tactic| le_base) => `(tactic| with_reducible exact legalsBy_le ..)
theorem tryPlay_le (m : Move) : Le (g.tryPlay true m) (g.tryPlay false m) := by
  unfold tryPlay
  refine .ite (.refl _) ?_
  cases m with
  | pass => exact .bind (play_le ..) (fun _ => .refl _)
  | resign _ => exact .bind (play_le ..) (fun _ => .refl _)
  | play x y =>
    refine .bind (.refl _) (fun _ => .ite (.refl _) (.bind (checkPoint_le ..) (fun e => ?_)))
    cases e with
    | some _ => exact .refl _
    | none => exact .bind (play_le ..) (fun _ => .refl _)
theorem putHandicap_le (ps : List Coord) : Le (g.putHandicap true ps) (g.putHandicap false ps) := by
  unfold putHandicap; exact .bind (Goban.pushMany_le ..) (fun _ => .refl _)
theorem calculateScoreBy_le (ord : List Point → List Point) (r : ScoreRules) :
    Le (g.calculateScoreBy true ord r) (g.calculateScoreBy false ord r) := by
  unfold calculateScoreBy; exact .bind (Goban.calculateTerritories_le ..) (fun _ => .refl _)
theorem getOutcome_le (ord : List Point → List Point) : Le (g.getOutcome true ord) (g.getOutcome false ord) := by
  unfold getOutcome
  exact .ite (.refl _) (.ite (.refl _) (.bind (calculateScoreBy_le ..) (fun _ => .refl _)))
macro_rules | `(tactic| le_base) => `(tactic| with_reducible exact getOutcome_le ..)
theorem legalsMoves_le : Le (g.legalsMoves true) (g.legalsMoves false) := by
  unfold legalsMoves; exact .bind (legalsBy_le ..) (fun _ => .refl _)
theorem fastPlayRandom_le : ∀ l, Le (fastPlayRandom true g l) (fastPlayRandom false g l)
  | [] => .refl _
  | c :: cs => by
    unfold fastPlayRandom
    exact .bind (checkPoint_le ..) (fun _ => .ite (.bind (checkEye_le ..) (fun _ => .ite (fastPlayRandom_le cs) (.refl _)))
      (fastPlayRandom_le cs))
theorem playoutRound_le (v : List Coord) : Le (g.playoutRound true v) (g.playoutRound false v) := by
  unfold playoutRound; exact .bind (fastPlayRandom_le ..) (fun _ => play_le ..)
theorem playout_le (sh : Nat → List Coord → List Coord) : ∀ k g, Le (playout true sh k g) (playout false sh k g)
  | 0, _ => .refl _
  | k + 1, g => by
    unfold playout
    exact .ite (.refl _) (.bind (.refl _) (fun _ => .bind (playoutRound_le ..) (fun _ => playout_le sh k _)))
theorem traitWinner_le (ord : List Point → List Point) : Le (g.traitWinner true ord) (g.traitWinner false ord) := by
  unfold traitWinner; exact .bind (getOutcome_le ..) (fun _ => .refl _)
theorem evaluateLeaf_le (ord : List Point → List Point) (t : Color) : Le (g.evaluateLeaf true ord t) (g.evaluateLeaf false ord t) := by
  unfold evaluateLeaf; exact .bind (traitWinner_le ..) (fun _ => .refl _)
theorem eyeChains_le : Le (g.eyeChains true) (g.eyeChains false) := by unfold eyeChains; le
theorem floatingStones_le : Le (g.floatingStones true) (g.floatingStones false) := by
  unfold floatingStones; exact .bind (eyeChains_le g) (fun _ => .refl _)
theorem deadChains_le (f : Goban) : Le (g.deadChains true f) (g.deadChains false f) := by
  unfold deadChains
  refine .bind (floatingStones_le g) (fun _ => ?_)
  le
theorem simulate_le (best : Nat → Game → List Move → Move) : ∀ k g, Le (simulate true best k g) (simulate false best k g)
  | 0, _ => .refl _
  | k + 1, g => by
    unfold simulate
    exact .ite (.refl _) (.bind (legalsMoves_le ..) (fun _ => .bind (play_le ..) (fun _ => simulate_le best k _)))
theorem deadStones_le (best : Nat → Game → List Move → Move) (k : Nat) : Le (g.deadStones true best k) (g.deadStones false best k) := by
  unfold deadStones
  exact .bind (floatingStones_le g) (fun _ => .bind (simulate_le best k g) (fun _ => deadChains_le ..))

theorem call_le (c : GOp) : Le (g.call true c) (g.call false c) := by
  cases c with
  | try_ m => exact tryPlay_le ..
  | resume => exact .refl _
  | setKomi k => exact .refl _
theorem run_le : ∀ (cs : List GOp) (g : Game), Le (g.run true cs) (g.run false cs)
  | [], _ => .refl _
  | c :: cs, g => by
    unfold run
    exact .bind (call_le ..) (fun _ => .bind (run_le cs _) (fun _ => .refl _))

end Game

namespace GameBuilder
variable (b : GameBuilder)

theorem start_le : Le (b.start true) (b.start false) := by unfold start; le
theorem buildInner_le : Le (b.buildInner true) (b.buildInner false) := by
  unfold buildInner
  refine .bind (start_le b) (fun _ => ?_)
  le
theorem build_le : Le (b.build true) (b.build false) := by unfold build; exact .bind (buildInner_le b) (fun _ => .refl _)

end GameBuilder

namespace Sgf

theorem toMove_le (a : Action) : Le (a.toMove true) (a.toMove false) := by
  cases a with
  | pass => exact .refl _
  | move c l => exact .bind (subU8_le ..) (fun _ => .bind (subU8_le ..) (fun _ => .refl _))
theorem rootToken_le (b : GameBuilder) (t : Token) : Le (rootToken true b t) (rootToken false b t) := by
  cases t <;> first
    | exact .refl _
    | exact .bind (subU8_le ..) (fun _ => .bind (subU8_le ..) (fun _ => .refl _))
theorem rootNode_le (b : GameBuilder) (ts : List Token) : Le (rootNode true b ts) (rootNode false b ts) := by
  unfold rootNode
  exact .foldlM (fun _ _ => .bind (rootToken_le ..) (fun _ => .refl _)) _ _
theorem nodeMove_le (ts : List Token) : Le (nodeMove true ts) (nodeMove false ts) := by
  unfold nodeMove
  split
  · exact .bind (toMove_le ..) (fun _ => .refl _)
  · exact .refl _
theorem fromNodes_le (ns : List (List Token)) : Le (fromNodes true ns) (fromNodes false ns) := by
  unfold fromNodes
  cases ns with
  | nil => exact .bind (.refl _) (fun _ => .bind (.mapM nodeMove_le _) (fun _ => GameBuilder.buildInner_le _))
  | cons t ts => exact .bind (rootNode_le ..) (fun _ => .bind (.mapM nodeMove_le _) (fun _ => GameBuilder.buildInner_le _))

end Sgf

end Model
