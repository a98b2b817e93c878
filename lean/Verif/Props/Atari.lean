import Verif.Props.AttackFree
import Verif.Props.Update
/-!
# A group in atari can be taken by the next stone: C125
-/

namespace Model
open Spec (OnBoard Adj Linked HasLiberty NoDead place SameOn Pos Suicide)

variable {dbg : Bool} {n : Dim} {m : Nat} {g g' : Game}

/-- A stone on the last liberty of an opposing group is neither suicide nor in an eye, and takes the group. -/
theorem last_liberty {pos : Pos} {c : Color} {q r : Coord} (hd : NoDead n pos) (hq : OnBoard n q) (hv : pos q = some c.opp)
    (hr : LibAt n pos q r) (honly : ∀ r', LibAt n pos q r' → r' = r) :
    ¬ Suicide n pos r c ∧ ¬ Spec.Eye n pos c r ∧ ∀ sa t, Linked n pos q t → Spec.play n sa pos r c t = none := by
  have hcap : ∀ t, Linked n pos q t → after n pos r c t = none := fun t ht =>
    (captured_iff hr.2.1 ((linked_same ht).trans hv)).2 fun r' hr' => honly r' ((libAt_linked hq ht).2 hr')
  refine ⟨not_suicide_of_capture hd hr.1 hr.2.1 ⟨q, hq, hv, hcap q (.refl q)⟩, ?_, fun sa t ht => ?_⟩
  · rintro ⟨_, hsur, _⟩
    obtain ⟨_, _, q', hl, hadj⟩ := hr
    have h1 := hsur q' (adj_symm hadj) (linked_onBoard hl hq)
    rw [(linked_same hl).trans hv] at h1
    cases c <;> cases h1
  · unfold Spec.play
    cases sa with
    | false => exact hcap t ht
    | true => exact removeDead_none (hcap t ht)

/-- **C125**. A group of the opponent for which `is_atari` is true has one liberty; `try_play` there is answered `Ok` or `Ko`, or
panics in a game of at least 65,535 stones. If it is
accepted, every stone of the group is gone. It is refused only if `check_ko` says so, and then the group is a single stone, or if
`check_super_ko` says so. -/
theorem C125_take (h : Legal dbg n m g) (hps : g.passes ≠ 2) {k : Nat} {grp : Group} {l : List Stone}
    (hk : g.goban.chains.chainAt k = .ok grp) (el : g.goban.chainStonesIdx dbg k = .ok l) (hc : grp.color = g.turn.opp)
    (ha : grp.isAtari = true) :
    ∃ x y, OnBoard n (x, y) ∧ grp.libertiesVec = [x * n.h + y] ∧ Safe (65535 ≤ m) (g.tryPlay dbg (.play x y)) fun (e, g') =>
      (e = none → ∀ s ∈ l, g'.goban.getColor s.coord = .ok none) ∧
      (e ≠ none → e = some .ko ∧
        ((g.rule.flagIllegal.ko = true ∧ g.checkKo dbg ⟨(x, y), g.turn⟩ = .ok true ∧ l.length = 1) ∨
          (g.rule.flagIllegal.superko = true ∧ g.checkSuperKo dbg ⟨(x, y), g.turn⟩ = .ok true))) := by
  obtain ⟨o, s, m', hm', hps2, hs⟩ := h.sim
  have hI := hs.inv
  obtain ⟨_, _, _, _, hat, _⟩ := C03_liberties hs.board hk el
  have hlen := hat.1 ha
  have hk := live_ch.1 hk
  obtain ⟨l2, hsp⟩ := group_spec (dbg := dbg) hI hk
  rw [hsp.stones] at el
  cases el
  obtain ⟨s0, hs0⟩ := List.exists_mem_of_ne_nil _ hsp.ne
  obtain ⟨q1, q2, _⟩ := hsp.view hI hk hs0
  have hlib : ∀ r, LibAt n g.goban.view s0.coord r ↔ OnBoard n r ∧ twoTo1dim n.sz r ∈ grp.libertiesVec := by
    intro r
    constructor
    · rintro ⟨r1, r2, q', r3, r4⟩
      obtain ⟨t, ht, et⟩ := List.mem_map.1 ((hsp.linked hI hk hs0).2 r3)
      exact ⟨r1, (libs_spec hI hk hsp _).2 ⟨r, r1, rfl, r2, t, ht, by rw [et]; exact r4⟩⟩
    · rintro ⟨r1, r2⟩
      obtain ⟨r', a1, a2, a3, t, a4, a5⟩ := (libs_spec hI hk hsp _).1 r2
      obtain rfl := twoTo1_inj hI.good a1 r1 a2
      exact ⟨r1, a3, t.coord, (hsp.linked hI hk hs0).1 (List.mem_map.2 ⟨t, a4, rfl⟩), a5⟩
  obtain ⟨i, hi⟩ := List.length_eq_one_iff.1 hlen
  obtain ⟨⟨x, y⟩, a1, a2, a3, t, a4, a5⟩ := (libs_spec hI hk hsp i).1 (by rw [hi]; exact List.mem_singleton.2 rfl)
  have hr : LibAt n g.goban.view s0.coord (x, y) := (hlib _).2 ⟨a1, by rw [a2, hi]; exact List.mem_singleton.2 rfl⟩
  have honly : ∀ r, LibAt n g.goban.view s0.coord r → r = (x, y) := by
    intro r hr
    obtain ⟨r1, r2⟩ := (hlib r).1 hr
    rw [hi, List.mem_singleton] at r2
    exact twoTo1_inj hI.good r1 a1 (r2.trans a2.symm)
  obtain ⟨hns, hne, htake⟩ := last_liberty hs.noDead' q1 (by rw [q2, hc]) hr honly
  have he0 : g.goban.getColor (x, y) = .ok none := by rw [hI.getColor_view a1, a3]
  refine ⟨x, y, a1, by rw [hi, ← a2]; rfl, ?_⟩
  rcases C13_decision h hps a1 with ⟨⟨e, g'⟩, e1, hdec⟩ | hf
  · refine Or.inl ⟨(e, g'), e1, ?_, ?_⟩
    · rintro rfl s' hs'
      obtain ⟨m1, _, hrc⟩ := h.reach
      have hp' := C13_accepted_is_play e1
      have hI' : Inv n g'.goban := (Reach.play hrc a1 he0 hp').inv
      obtain ⟨b1, _, _⟩ := hsp.view hI hk hs'
      rw [hI'.getColor_view b1, (C09_play hrc hs.noDead' a1 he0).of_ok hp' _ b1,
        htake _ _ ((hsp.linked hI hk hs0).1 (List.mem_map.2 ⟨s', hs', rfl⟩))]
    · intro hen
      dsimp only at hdec
      rw [if_neg (by simp [a3]), if_neg (fun h => hns h.2)] at hdec
      split at hdec
      · rename_i h1
        refine ⟨hdec, Or.inl ⟨h1.1, h1.2, ?_⟩⟩
        obtain ⟨b, eb, hb⟩ := hs.checkKo_seen a1 (by rw [← hs.pos _ a1]; exact a3)
        rw [h1.2] at eb
        cases eb
        obtain ⟨_, hko⟩ := hb.1 rfl
        obtain ⟨_, _, q', r3, r4⟩ := hr
        have hq'b := linked_onBoard r3 q1
        have hone : ∀ t, Linked n g.goban.view q' t → t = q' := by
          intro t ht
          refine hko q' (adj_symm r4) hq'b ?_ ?_ t (linked_congr hs.pos hq'b ht)
          · rw [← hs.pos q' hq'b, linked_same r3, q2]; simp
          · rw [onlyLiberty_iff]
            intro r hr'
            exact honly r ((libAt_linked q1 r3).2 ((libAt_congr hs.pos hq'b).2 hr'))
        have hall : ∀ t ∈ l.map Stone.coord, t = q' := fun t ht =>
          hone t (linked_trans (linked_symm q1 r3) ((hsp.linked hI hk hs0).1 ht))
        have hlen1 : (l.map Stone.coord).length ≤ [q'].length :=
          (List.subperm_of_subset hsp.nodup (fun t ht => List.mem_singleton.2 (hall t ht))).length_le
        rw [List.length_map] at hlen1
        have := List.length_pos_of_mem hs0
        simp only [List.length_singleton] at hlen1
        omega
      · rw [if_neg (fun h => hne h.2)] at hdec
        split at hdec
        · rename_i h2
          exact ⟨hdec, Or.inr h2⟩
        · exact absurd hdec hen
  · exact Or.inr hf

/-- **C125**, `is_atari` is exact, for the groups of the opponent: where super-ko is not forbidden, and ko is not forbidden or the group
has at least two stones, it is true iff there is an accepted play that takes the group. -/
theorem C125_exact (h : Legal dbg n m g) (hm : m < 65535) (hps : g.passes ≠ 2) {k : Nat} {grp : Group} {l : List Stone}
    (hk : g.goban.chains.chainAt k = .ok grp) (el : g.goban.chainStonesIdx dbg k = .ok l) (hc : grp.color = g.turn.opp)
    (hsk : g.rule.flagIllegal.superko = false) (hko : g.rule.flagIllegal.ko = false ∨ 2 ≤ grp.numStones) :
    grp.isAtari = true ↔ ∃ x y g', OnBoard n (x, y) ∧ g.tryPlay dbg (.play x y) = .ok (none, g') ∧
      ∀ s ∈ l, g'.goban.getColor s.coord = .ok none := by
  obtain ⟨m1, _, hrc⟩ := h.reach
  obtain ⟨l2, hsp⟩ := group_spec (dbg := dbg) hrc.inv (live_ch.1 hk)
  have el' := el
  rw [hsp.stones] at el'
  cases el'
  constructor
  · intro ha
    obtain ⟨x, y, a1, _, hsafe⟩ := C125_take h hps hk el hc ha
    obtain ⟨⟨e, g'⟩, a3, a4, a5⟩ := hsafe.total (by omega)
    cases e with
    | none => exact ⟨x, y, g', a1, a3, a4 rfl⟩
    | some e =>
      obtain ⟨_, h1 | h1⟩ := a5 (by simp)
      · have := hsp.len
        rcases hko with h2 | h2
        · rw [h2] at h1; cases h1.1
        · omega
      · rw [hsk] at h1; cases h1.1
  · rintro ⟨x, y, g', a1, a2, a3⟩
    obtain ⟨s0, hs0⟩ := List.exists_mem_of_ne_nil _ hsp.ne
    exact (C115_atari hrc a1 (accepted_stone a2).1 (C13_accepted_is_play a2) hk el hs0 (by rw [a3 s0 hs0]; simp)).2

/-- **C125**, for the groups of the player to move: if super-ko is not forbidden and nobody has just passed, `is_atari` is true iff,
when the player passes, there is an accepted play of the opponent that takes the group. -/
theorem C125_threat (h : Legal dbg n m g) (hm : m + 1 < 65535) (hps : g.passes = 0) {k : Nat} {grp : Group} {l : List Stone}
    (hk : g.goban.chains.chainAt k = .ok grp) (el : g.goban.chainStonesIdx dbg k = .ok l) (hc : grp.color = g.turn)
    (hsk : g.rule.flagIllegal.superko = false) :
    ∃ g1, g.tryPlay dbg .pass = .ok (none, g1) ∧
      (grp.isAtari = true ↔ ∃ x y g', OnBoard n (x, y) ∧ g1.tryPlay dbg (.play x y) = .ok (none, g') ∧
        ∀ s ∈ l, g'.goban.getColor s.coord = .ok none) := by
  obtain ⟨o, s, m', hm', hps2, hs⟩ := h.sim
  obtain ⟨g1, e1, h1, hr1⟩ := hs.pass (by rw [← hs.passes, hps]; omega)
  have e1' : g.tryPlay dbg .pass = .ok (none, g1) := by
    unfold Game.tryPlay
    rw [hps]
    simp only [e1, ok_bind]
    rfl
  have hgob : g1.goban = g.goban := by
    unfold Game.play at e1
    obtain ⟨_, _, e⟩ := bind_eq_ok e1
    cases e; rfl
  have hL : Legal dbg n (m + 1) g1 := .tryPlay (mv := .pass) h trivial e1'
  have hps1 : g1.passes ≠ 2 := by rw [h1.passes]; dsimp only [Spec.apply]; rw [← hs.passes, hps]; omega
  have ht1 : g1.turn = g.turn.opp := by rw [h1.turn, hs.turn]; rfl
  have hk1 : g1.goban.chains.chainAt k = .ok grp := by rw [hgob]; exact hk
  have el1 : g1.goban.chainStonesIdx dbg k = .ok l := by rw [hgob]; exact el
  refine ⟨g1, e1', fun ha => ?_, ?_⟩
  · obtain ⟨x, y, a1, _, hsafe⟩ := C125_take hL hps1 hk1 el1 (by rw [hc, ht1, Color.opp_opp]) ha
    obtain ⟨⟨e, g'⟩, a3, a4, a5⟩ := hsafe.total (by omega)
    cases e with
    | none => exact ⟨x, y, g', a1, a3, a4 rfl⟩
    | some e =>
      obtain ⟨_, h2 | h2⟩ := a5 (by simp)
      · rw [C14_no_ko_after_pass e1'] at h2
        cases h2.2.1
      · rw [hr1, hsk] at h2; cases h2.1
  · rintro ⟨x, y, g', a1, a2, a3⟩
    obtain ⟨m1, _, hrc⟩ := hL.reach
    obtain ⟨l2, hsp⟩ := group_spec (dbg := dbg) hrc.inv (live_ch.1 hk1)
    have el' := el1
    rw [hsp.stones] at el'
    cases el'
    obtain ⟨s0, hs0⟩ := List.exists_mem_of_ne_nil _ hsp.ne
    exact (C115_atari hrc a1 (accepted_stone a2).1 (C13_accepted_is_play a2) hk1 el1 hs0 (by rw [a3 s0 hs0]; simp)).2

/-- On 4 × 4 under the Japanese rule: two white stones in the corner are in atari, and Black's stone on (0, 2) takes both. -/
example : ∃ g, Legal true 4 6 g ∧ okAnd (do
      let grp ← g.goban.chains.chainAt 0
      let l ← g.goban.chainStonesIdx true 0
      let r ← g.tryPlay true (.play 0 2)
      let ok : Bool := decide (g.turn = .black ∧ grp.isAtari = true ∧ l.map Stone.coord = [(0, 0), (0, 1)])
      .ok (ok, grp.libertiesVec, r.1, [r.2.goban.getColor (0, 0), r.2.goban.getColor (0, 1)]))
    (fun r => decide (r = (true, [2], none, [.ok none, .ok none]))) = true :=
  mkGame_exists (rule := JAPANESE) (l := [.try_ .pass, .try_ (.play 0 0), .try_ (.play 1 0), .try_ (.play 0 1), .try_ (.play 1 1),
    .try_ (.play 3 3)]) (by decide) (by decide +kernel)

/-- A ko on 4 × 4: White has just taken on (1, 1); the white stone on (1, 2) is in atari and Black's stone on its liberty is refused. -/
example : ∃ g, Legal true 4 8 g ∧ okAnd (do
      let r ← g.tryPlay true (.play 1 1)
      let grp ← match g.goban.bd (twoTo1dim (4, 4) (1, 2)) with
        | some k => g.goban.chains.chainAt k
        | none => .error .panic
      .ok (g.turn, grp.color, grp.isAtari, grp.numStones, grp.libertiesVec, r.1))
    (fun r => decide (r = (.black, .white, true, 1, [5], some .ko))) = true :=
  mkGame_exists (rule := JAPANESE) (l := [.try_ (.play 0 2), .try_ (.play 0 1), .try_ (.play 2 2), .try_ (.play 2 1), .try_ (.play 1 3),
    .try_ (.play 1 0), .try_ (.play 1 1), .try_ (.play 1 2)]) (by decide) (by decide +kernel)

end Model
