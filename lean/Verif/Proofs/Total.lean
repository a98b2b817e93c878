import Verif.Proofs.Region
import Verif.Proofs.Eye
import Verif.Proofs.Lists
import Verif.Proofs.Stones
import Verif.Proofs.Refine
import Verif.Model.DeadStones
/-!
# Every query returns, on every board whose width divides its height
-/

namespace Model
open Spec (OnBoard Adj Linked SameOn Pos)

variable {dbg : Bool} {n : Dim} {m : Nat} {g : Goban}

theorem mapM_total {α β} {f : α → M β} {P : β → Prop} : ∀ {l : List α}, (∀ a ∈ l, ∃ b, f a = .ok b ∧ P b) →
    ∃ l', l.mapM f = .ok l' ∧ ∀ b ∈ l', P b
  | [], _ => ⟨[], rfl, by simp⟩
  | a :: l, h => by
    obtain ⟨b, e, hb⟩ := h a (by simp)
    obtain ⟨l', e', hl⟩ := mapM_total (l := l) (fun a ha => h a (by simp [ha]))
    refine ⟨b :: l', by rw [List.mapM_cons, e, ok_bind, e']; rfl, ?_⟩
    intro x hx
    rcases List.mem_cons.1 hx with rfl | hx
    · exact hb
    · exact hl x hx

theorem mapM_filterMap_total {α β} {f : α → M (Option β)} {P : β → Prop} {l : List α}
    (h : ∀ a ∈ l, ∃ o, f a = .ok o ∧ ∀ b, o = some b → P b) :
    ∃ r, (do let l ← l.mapM f; .ok (l.filterMap id) : M (List β)) = .ok r ∧ ∀ b ∈ r, P b := by
  obtain ⟨l', e, hl⟩ := mapM_total h
  refine ⟨_, by rw [e, ok_bind], ?_⟩
  intro b hb
  rw [List.mem_filterMap] at hb
  obtain ⟨o, ho, h⟩ := hb
  exact hl o ho b h

theorem oneTo2_total (hn : n.Good) {i : Nat} (hi : i < n.area) :
    ∃ p, oneTo2dim n.sz i = .ok p ∧ OnBoard n p := by
  have h1 := hn.h19
  have h2 := hn.w_le
  have hw : 0 < n.w := by
    rcases Nat.eq_zero_or_pos n.w with h | h
    · unfold Dim.area at hi; rw [h] at hi; simp at hi
    · exact h
  have hh : 0 < n.h := by
    rcases Nat.eq_zero_or_pos n.h with h | h
    · unfold Dim.area at hi; rw [h] at hi; simp at hi
    · exact h
  unfold oneTo2dim Dim.sz
  rw [if_neg (by simp only; omega)]
  have h3 : i / n.h < n.w := by
    rw [Nat.div_lt_iff_lt_mul hh, Nat.mul_comm]; exact hi
  have h4 : i % n.w < n.w := Nat.mod_lt _ hw
  refine ⟨_, rfl, ?_, ?_⟩
  · show u8 (i / n.h) < n.h
    unfold u8; rw [Nat.mod_eq_of_lt (by omega)]; omega
  · show u8 (i % n.w) < n.w
    unfold u8; rw [Nat.mod_eq_of_lt (by omega)]; exact h4

/-- `get_empty_coords` returns points of the board, whether or not they are empty. -/
theorem getEmptyCoords_any (hI : Inv n g) : ∃ l, g.getEmptyCoords = .ok l ∧ ∀ p ∈ l, OnBoard n p := by
  unfold Goban.getEmptyCoords
  rw [hI.size]
  have hle := hI.good.area_le
  dsimp only [Dim.sz]
  rw [show assertM (decide (n.h * n.w ≤ g.board.length)) = .ok () by
      rw [hI.rep.blen]; unfold assertM; rw [if_pos (by rw [decide_eq_true_eq]; exact hle)], ok_bind,
    hI.board_take (n.h * n.w) hle, zipIdx_map_range]
  apply mapM_filterMap_total
  intro x hx
  obtain ⟨i, hi, rfl⟩ := List.mem_map.1 hx
  rw [List.mem_range] at hi
  dsimp only
  cases g.bd i with
  | none =>
    obtain ⟨p, e, hp⟩ := oneTo2_total hI.good hi
    dsimp only
    rw [show oneTo2dim (n.h, n.w) i = .ok p from e]
    exact ⟨some p, rfl, fun q hq => by cases hq; exact hp⟩
  | some k => exact ⟨none, rfl, by simp⟩

theorem border_any (hI : Inv n g) : ∀ (l : List Point) (b : Bool × Bool), (∀ x ∈ l, OnBoard n x.coord) →
    ∃ r, g.border dbg l b = .ok r
  | [], b, _ => ⟨_, rfl⟩
  | e :: l, b, h => by
    unfold Goban.border
    rw [connectedPoints_ok hI (h e (by simp)), ok_bind]
    cases Goban.borderPoints _ b with
    | none => exact ⟨_, rfl⟩
    | some b' => exact border_any hI l b' (fun x hx => h x (by simp [hx]))

theorem territorySteps_any (hI : Inv n g) {ord : List Point → List Point} (hord : ∀ l, (ord l).Perm l) :
    ∀ (l : List (List Point)) (acc : List Point × List Point), (∀ R ∈ l, ∀ x ∈ R, OnBoard n x.coord) →
    ∃ acc', l.foldlM (g.territoryStep dbg ord) acc = .ok acc'
  | [], acc, _ => ⟨acc, rfl⟩
  | R :: l, acc, h => by
    rw [List.foldlM_cons]
    obtain ⟨r, e⟩ := border_any (dbg := dbg) hI (ord R) (false, false)
      (fun x hx => h R (by simp) x ((hord R).mem_iff.1 hx))
    have : ∃ acc1, g.territoryStep dbg ord acc R = .ok acc1 := by
      unfold Goban.territoryStep
      rw [e, ok_bind]
      cases r with
      | none => exact ⟨_, rfl⟩
      | some b =>
        dsimp only
        split
        · exact ⟨_, rfl⟩
        · split
          · exact ⟨_, rfl⟩
          · exact ⟨_, rfl⟩
    obtain ⟨acc1, e1⟩ := this
    rw [e1, ok_bind]
    exact territorySteps_any hI hord l acc1 (fun R hR => h R (by simp [hR]))

theorem territories_any (hI : Inv n g) {ord : List Point → List Point} (hord : ∀ l, (ord l).Perm l) :
    ∃ r, g.territories dbg ord = .ok r := by
  unfold Goban.territories
  obtain ⟨es, e, hes⟩ := getEmptyCoords_any hI
  rw [e, ok_bind]
  obtain ⟨gs, e1, hgs⟩ := chainsFromStones_any (dbg := dbg) hI (es.map (fun c => { coord := c, color := none })) [] (by
    intro s hs
    obtain ⟨p, hp, rfl⟩ := List.mem_map.1 hs
    exact hes p hp) (by simp)
  rw [show g.chainsFromStones dbg (es.map (fun c => { coord := c, color := none })) = .ok gs from e1, ok_bind]
  exact territorySteps_any hI hord gs _ hgs

theorem cell_ok (hI : Inv n g) {o : Option Nat} (ho : o ∈ g.board) : ∃ c, (match o with
    | none => (.ok none : M MaybeColor)
    | some k => do let ch ← g.chains.chainAt k; .ok (some ch.color)) = .ok c := by
  rw [hI.board_eq, List.mem_map] at ho
  obtain ⟨i, _, rfl⟩ := ho
  exact ⟨_, col_bind hI.rep⟩

theorem chunksExact_sub {α} {k : Nat} : ∀ (fuel : Nat) (l : List α), ∀ c ∈ Goban.chunksExact k fuel l, ∀ x ∈ c, x ∈ l
  | 0, l, c, hc, _, _ => by unfold Goban.chunksExact at hc; cases hc
  | fuel + 1, l, c, hc, x, hx => by
    unfold Goban.chunksExact at hc
    split at hc
    · cases hc
    · rcases List.mem_cons.1 hc with rfl | hc
      · exact List.mem_of_mem_take hx
      · exact List.mem_of_mem_drop (chunksExact_sub fuel _ c hc x hx)

theorem matrix_any (hI : Inv n g) (hw : n.w ≠ 0) : ∃ r, g.matrix = .ok r := by
  unfold Goban.matrix
  rw [show assertM (g.size.2 != 0) = .ok () by
    unfold assertM; rw [hI.size, if_pos (by simpa [Dim.sz] using hw)], ok_bind]
  obtain ⟨l, e, _⟩ := mapM_total (P := fun _ => True) (l := Goban.chunksExact g.size.2 g.board.length g.board)
    (f := fun line : List (Option Nat) => line.mapM (fun o => match o with
      | none => (.ok none : M MaybeColor)
      | some k => do let ch ← g.chains.chainAt k; .ok (some ch.color))) (by
    intro line hline
    obtain ⟨l, e, _⟩ := mapM_total (P := fun _ => True) (l := line) (f := fun o => match o with
      | none => (.ok none : M MaybeColor)
      | some k => do let ch ← g.chains.chainAt k; .ok (some ch.color)) (by
      intro o ho
      obtain ⟨c, e⟩ := cell_ok hI (chunksExact_sub _ _ line hline o ho)
      exact ⟨c, e, trivial⟩)
    exact ⟨l, e, trivial⟩)
  exact ⟨l, e⟩

theorem coordsByColor_any (hI : Inv n g) (hd : dbg = false ∨ n.area < 256) (c : MaybeColor) :
    ∃ l, g.getCoordsByColor dbg c = .ok l ∧ ∀ p ∈ l, OnBoard n p := by
  have hb : ∃ b, mulU8 dbg n.sz.1 n.sz.2 = .ok b ∧ b ≤ n.area := by
    rcases hd with rfl | hd
    · exact ⟨_, mulU8_release, Nat.mod_le _ _⟩
    · exact ⟨_, mulU8_small hd, Nat.le_refl _⟩
  obtain ⟨b, e, hle⟩ := hb
  unfold Goban.getCoordsByColor
  rw [hI.size, e, ok_bind]
  have ha := hI.good.area_le
  apply mapM_filterMap_total
  intro i hi
  rw [List.mem_range] at hi
  obtain ⟨p, e, hp⟩ := oneTo2_total hI.good (show i < n.area by omega)
  have hsome : ∀ q, some p = some q → OnBoard n q := fun q hq => by cases hq; exact hp
  cases c with
  | none => dsimp only; rw [e]; exact ⟨some p, rfl, hsome⟩
  | some c =>
    dsimp only
    rw [Goban.boardAt_ok (by rw [hI.rep.blen]; omega), ok_bind]
    cases hk : g.bd i with
    | none => exact ⟨none, rfl, by simp⟩
    | some k =>
      obtain ⟨grp, hg⟩ := hI.rep.live i k hk
      dsimp only
      rw [Goban.chainAt_ok hg, ok_bind]
      split
      · rw [e]; exact ⟨some p, rfl, hsome⟩
      · exact ⟨none, rfl, by simp⟩

/-! ### Games -/

variable {g : Game}

theorem checkSuicide_any (hI : Inv n g.goban) {s : Stone} (hp : OnBoard n s.coord) : ∃ b, g.checkSuicide dbg s = .ok b := by
  obtain ⟨b1, e1, _⟩ := hasLiberties_ok (dbg := dbg) hI hp
  obtain ⟨gs, e2, _⟩ := connectedGroups_ok (dbg := dbg) hI hp
  unfold Game.checkSuicide
  rw [e1, ok_bind]
  cases b1 with
  | true => exact ⟨_, rfl⟩
  | false => simp only [Bool.false_eq_true, if_false]; rw [e2]; exact ⟨_, rfl⟩

theorem checkKo_any (hI : Inv n g.goban) {s : Stone} (hp : OnBoard n s.coord) : ∃ b, g.checkKo dbg s = .ok b := by
  obtain ⟨gs, e2, _⟩ := connectedGroups_ok (dbg := dbg) hI hp
  unfold Game.checkKo
  split
  · rw [e2]; exact ⟨_, rfl⟩
  · exact ⟨_, rfl⟩

theorem willCapture_any (hI : Inv n g.goban) {p : Coord} (hp : OnBoard n p) : ∃ b, g.willCapture dbg p = .ok b := by
  obtain ⟨gs, e2, _⟩ := connectedGroups_ok (dbg := dbg) hI hp
  unfold Game.willCapture
  rw [e2]; exact ⟨_, rfl⟩

theorem playForVerification_any (hI : Inv n g.goban) {p : Coord} (hp : OnBoard n p) (he : g.goban.getColor p = .ok none) :
    Safe g.Full (g.playForVerification dbg p) (fun b => Inv n b) := by
  rw [playForVerification_eq]
  exact Safe.bind (move_total hI hp ((getColor_none hI hp).1 he)) (fun c hc => Safe.ok hc.inv)

theorem checkSuperKo_any (hI : Inv n g.goban) (hh : ∀ b ∈ g.history, Inv n b) {s : Stone} (hp : OnBoard n s.coord)
    (he : g.goban.getColor s.coord = .ok none) : Safe g.Full (g.checkSuperKo dbg s) (fun _ => True) := by
  unfold Game.checkSuperKo
  split
  · exact Safe.ok trivial
  · obtain ⟨b1, e1⟩ := willCapture_any (dbg := dbg) hI hp
    rw [e1, ok_bind]
    split
    · exact Safe.ok trivial
    · refine Safe.bind (playForVerification_any hI hp he) (fun t ht => ?_)
      obtain ⟨b2, e2⟩ := checkKo_any (dbg := dbg) hI hp
      rw [e2, ok_bind]
      split
      · exact Safe.ok trivial
      · obtain ⟨r, e, _⟩ := historyContains_ok ht g.history hh
        rw [e]; exact Safe.ok trivial

theorem checkPointBy_any (hI : Inv n g.goban) (hh : ∀ b ∈ g.history, Inv n b) {p : Coord} (hp : OnBoard n p) (r : IllegalRules) :
    Safe g.Full (g.checkPointBy dbg p r) (fun _ => True) := by
  obtain ⟨b1, e1⟩ := checkSuicide_any (dbg := dbg) hI (s := { coord := p, color := g.turn }) hp
  obtain ⟨b2, e2⟩ := checkKo_any (dbg := dbg) hI (s := { coord := p, color := g.turn }) hp
  obtain ⟨b3, e3, _⟩ := checkEye_ok (dbg := dbg) (c := g.turn) hI hp
  have flag : ∀ {a b : Bool} {x : M Bool}, x = .ok b → ∃ b', (if a then x else pure false) = .ok b' := by
    intro a b x h; cases a
    · exact ⟨false, rfl⟩
    · exact ⟨b, h⟩
  unfold Game.checkPointBy
  dsimp only
  have hc := hI.getColor_view hp
  rw [hc, ok_bind]
  split
  · exact Safe.ok trivial
  · rename_i hne
    have he : g.goban.getColor p = .ok none := by
      rw [hc]
      cases hv : g.goban.view p with
      | none => rfl
      | some c => rw [hv] at hne; exact absurd rfl hne
    obtain ⟨c1, f1⟩ := flag (a := r.suicide) e1
    rw [f1, ok_bind]
    split
    · exact Safe.ok trivial
    obtain ⟨c2, f2⟩ := flag (a := r.ko) e2
    rw [f2, ok_bind]
    split
    · exact Safe.ok trivial
    obtain ⟨c3, f3⟩ := flag (a := r.fillEye) e3
    rw [f3, ok_bind]
    split
    · exact Safe.ok trivial
    refine Safe.bind (P := fun _ => True) ?_ (fun b _ => ?_)
    · split
      · exact checkSuperKo_any hI hh hp he
      · exact Safe.ok trivial
    · split <;> exact Safe.ok trivial

theorem Safe.mapM {α β} {full : Prop} {f : α → M β} : ∀ {l : List α}, (∀ a ∈ l, Safe full (f a) (fun _ => True)) →
    Safe full (l.mapM f) (fun _ => True)
  | [], _ => Safe.ok trivial
  | a :: l, h => by
    rw [List.mapM_cons]
    exact Safe.bind (h a (by simp)) (fun b _ => Safe.bind (Safe.mapM (fun a ha => h a (by simp [ha]))) (fun _ _ => Safe.ok trivial))

theorem legalsBy_any (hI : Inv n g.goban) (hh : ∀ b ∈ g.history, Inv n b) (r : IllegalRules) :
    Safe g.Full (g.legalsBy dbg r) (fun _ => True) := by
  unfold Game.legalsBy Game.pseudoLegals
  obtain ⟨l, e, hl⟩ := getEmptyCoords_any hI
  rw [e, ok_bind]
  refine Safe.bind (P := fun _ => True) (Safe.mapM ?_) (fun _ _ => Safe.ok trivial)
  intro p hp
  exact Safe.bind (checkPointBy_any hI hh (hl p hp) r) (fun _ _ => Safe.ok trivial)

theorem legalsMoves_any (hI : Inv n g.goban) (hh : ∀ b ∈ g.history, Inv n b) :
    Safe g.Full (g.legalsMoves dbg) (fun _ => True) := by
  unfold Game.legalsMoves
  refine Safe.bind (legalsBy_any hI hh _) (fun l _ => ?_)
  dsimp only
  split
  · split <;> exact Safe.ok trivial
  · exact Safe.ok trivial

theorem fastPlayRandom_any (hI : Inv n g.goban) (hh : ∀ b ∈ g.history, Inv n b) : ∀ {v : List Coord}, (∀ p ∈ v, OnBoard n p) →
    Safe g.Full (g.fastPlayRandom dbg v) (fun _ => True)
  | [], _ => Safe.ok trivial
  | p :: v, h => by
    unfold Game.fastPlayRandom
    refine Safe.bind (checkPointBy_any hI hh (h p (by simp)) _) (fun e _ => ?_)
    split
    · obtain ⟨b, e, _⟩ := checkEye_ok (dbg := dbg) (c := g.turn) hI (h p (by simp))
      rw [e, ok_bind]
      split
      · exact fastPlayRandom_any hI hh (fun q hq => h q (by simp [hq]))
      · exact Safe.ok trivial
    · exact fastPlayRandom_any hI hh (fun q hq => h q (by simp [hq]))

theorem calculateScoreBy_any (hI : Inv n g.goban) {ord : List Point → List Point} (hord : ∀ l, (ord l).Perm l) (r : ScoreRules) :
    ∃ s, g.calculateScoreBy dbg ord r = .ok s := by
  obtain ⟨t, e⟩ := territories_any (dbg := dbg) hI hord
  unfold Game.calculateScoreBy Goban.calculateTerritories
  rw [e]
  exact ⟨_, rfl⟩

theorem getOutcome_any (hI : Inv n g.goban) {ord : List Point → List Point} (hord : ∀ l, (ord l).Perm l) :
    ∃ s, g.getOutcome dbg ord = .ok s := by
  unfold Game.getOutcome Game.calculateScore
  obtain ⟨t, e⟩ := calculateScoreBy_any (dbg := dbg) hI hord g.rule.flagScore
  split
  · exact ⟨_, rfl⟩
  · split
    · exact ⟨_, rfl⟩
    · rw [e]; exact ⟨_, rfl⟩

theorem eyeChains_any (hI : Inv n g.goban) : ∃ l, g.eyeChains dbg = .ok l ∧ ∀ k ∈ l, g.goban.Live k := by
  unfold Game.eyeChains Game.pseudoLegals
  obtain ⟨l, e, hl⟩ := getEmptyCoords_any hI
  rw [e, ok_bind]
  obtain ⟨ls, e, h⟩ := mapM_total (P := fun ks => ∀ k ∈ ks, g.goban.Live k) (l := l) (f := fun p => do
      let e ← do
        if ← g.checkEye dbg { coord := p, color := .black } then pure true
        else g.checkEye dbg { coord := p, color := .white }
      if e then g.goban.connectedGroupsIdx dbg (twoTo1dim g.goban.size p) else .ok []) (by
    intro p hp
    obtain ⟨b1, e1, _⟩ := checkEye_ok (dbg := dbg) (c := .black) hI (hl p hp)
    obtain ⟨b2, e2, _⟩ := checkEye_ok (dbg := dbg) (c := .white) hI (hl p hp)
    obtain ⟨ks, e3, _, hks⟩ := connectedGroupsIdx_ok (dbg := dbg) hI.size hI.good hI.rep.blen (twoTo1_lt hI.good (hl p hp))
    have hlive : ∀ k ∈ ks, g.goban.Live k := by
      intro k hk
      obtain ⟨j, _, hj⟩ := (hks k).1 hk
      obtain ⟨grp, hg⟩ := hI.rep.live j k hj
      exact ⟨grp, Goban.chainAt_ok hg⟩
    rw [hI.size]
    rw [e1, ok_bind, e2]
    cases b1
    · cases b2
      · exact ⟨[], rfl, by simp⟩
      · exact ⟨ks, e3, hlive⟩
    · exact ⟨ks, e3, hlive⟩)
  refine ⟨ls.flatten, congrArg (· >>= fun ls : List (List Nat) => (Except.ok ls.flatten : M (List Nat))) e, ?_⟩
  intro k hk
  obtain ⟨ks, h1, h2⟩ := List.mem_flatten.1 hk
  exact h ks h1 k h2

theorem floatingStones_any (hI : Inv n g.goban) : ∃ l, g.floatingStones dbg = .ok l ∧ ∀ k ∈ l, g.goban.Live k := by
  obtain ⟨l, e, h⟩ := eyeChains_any (dbg := dbg) hI
  unfold Game.floatingStones
  rw [e, ok_bind]
  refine ⟨_, rfl, ?_⟩
  intro k hk
  rw [List.mem_filter, decide_eq_true_eq] at hk
  exact h k (List.count_pos_iff.1 (by omega))

end Model
