import Verif.Lemmas.BoardBasic
/- Flood fill: `makeGroup` and `makeEmptyRegion` find connected components, for every pop order. -/
namespace Gomill
open Py Go

variable {b : Board}

theorem popIndex_lt {k : Nat} {l : List Pt} (h : l ≠ []) : popIndex k l < l.length :=
  Nat.mod_lt _ (List.length_pos_iff.2 h)

/-- Inner loop of `_make_group`. -/
theorem groupNeighbour_fold (c : Colour) (nbs : List Pt) (st : GroupFill) (hnd : st.toHandle.Nodup) :
    let st' := nbs.foldl (b.groupNeighbour c) st
    st'.points = st.points ∧ st'.toHandle.Nodup ∧
    (∀ q, q ∈ st'.toHandle ↔
      q ∈ st.toHandle ∨ (q ∈ nbs ∧ b.inRange q = true ∧ b.at q = some c ∧ q ∉ st.points)) ∧
    (st'.surrounded = true ↔
      st.surrounded = true ∧ ∀ q ∈ nbs, b.inRange q = true → b.at q ≠ none) := by
  induction nbs generalizing st with
  | nil => simp [hnd]
  | cons nb nbs ih =>
    simp only [List.foldl_cons]
    have key : (b.groupNeighbour c st nb).points = st.points ∧ (b.groupNeighbour c st nb).toHandle.Nodup ∧
      (∀ q, q ∈ (b.groupNeighbour c st nb).toHandle ↔
        q ∈ st.toHandle ∨ (q = nb ∧ b.inRange q = true ∧ b.at q = some c ∧ q ∉ st.points)) ∧
      ((b.groupNeighbour c st nb).surrounded = true ↔
        st.surrounded = true ∧ (b.inRange nb = true → b.at nb ≠ none)) := by
      unfold Board.groupNeighbour
      by_cases hr : b.inRange nb = true
      · simp only [hr, Bool.not_true, Bool.false_eq_true, if_false]
        cases hb : b.at nb with
        | none =>
          refine ⟨rfl, hnd, ?_, by simp⟩
          intro q; constructor
          · exact Or.inl
          · rintro (h | ⟨rfl, _, h, _⟩)
            · exact h
            · rw [hb] at h; simp at h
        | some d =>
          by_cases hd : d = c
          · subst hd
            simp only [if_true]
            by_cases hin : nb ∈ st.points
            · simp only [hin, not_true, if_false]
              refine ⟨trivial, hnd, ?_, by simp⟩
              intro q; constructor
              · exact Or.inl
              · rintro (h | ⟨rfl, _, _, h⟩)
                · exact h
                · exact absurd hin h
            · simp only [hin, not_false_eq_true, if_true]
              refine ⟨trivial, nodup_setAdd hnd, ?_, by simp⟩
              intro q; rw [mem_setAdd]; constructor
              · rintro (rfl | h)
                · exact Or.inr ⟨rfl, hr, hb, hin⟩
                · exact Or.inl h
              · rintro (h | ⟨rfl, _⟩)
                · exact Or.inr h
                · exact Or.inl rfl
          · simp only [hd, if_false]
            refine ⟨trivial, hnd, ?_, by simp⟩
            intro q; constructor
            · exact Or.inl
            · rintro (h | ⟨rfl, _, h, _⟩)
              · exact h
              · rw [hb] at h; exact absurd (Option.some.inj h) hd
      · simp only [hr, Bool.not_false, if_true]
        refine ⟨trivial, hnd, ?_, by simp⟩
        intro q; constructor
        · exact Or.inl
        · rintro (h | ⟨rfl, h, _⟩)
          · exact h
          · exact absurd h hr
    obtain ⟨k1, k2, k3, k4⟩ := key
    obtain ⟨i1, i2, i3, i4⟩ := ih _ k2
    refine ⟨by rw [i1, k1], i2, ?_, ?_⟩
    · intro q
      rw [i3, k3, k1]
      simp only [List.mem_cons]
      grind
    · rw [i4, k4]
      simp only [List.mem_cons, forall_eq_or_imp]
      grind

/-- Loop invariant of `_make_group`. -/
structure GFInv (b : Board) (p : Pt) (c : Colour) (st : GroupFill) : Prop where
  nodupP : st.points.Nodup
  nodupH : st.toHandle.Nodup
  disj : ∀ q ∈ st.toHandle, q ∉ st.points
  start : p ∈ st.points ∨ p ∈ st.toHandle
  connP : ∀ q ∈ st.points, Conn b.side b.pos p q
  connH : ∀ q ∈ st.toHandle, Conn b.side b.pos p q
  closed : ∀ q ∈ st.points, ∀ r, Adj q r → OnBoard b.side r → b.pos r = some c →
    r ∈ st.points ∨ r ∈ st.toHandle
  surr : st.surrounded = true ↔ ∀ q ∈ st.points, ∀ r, Adj q r → OnBoard b.side r → b.pos r ≠ none

theorem gf_step (hwf : b.WF) {p : Pt} {c : Colour} (hp : OnBoard b.side p) (hc : b.pos p = some c)
    {st : GroupFill} (hi : GFInv b p c st) {x : Pt} (hx : x ∈ st.toHandle) :
    GFInv b p c ((neighbours x).foldl (b.groupNeighbour c)
      { st with toHandle := setDiscard st.toHandle x, points := setAdd st.points x }) ∧
    ((neighbours x).foldl (b.groupNeighbour c)
      { st with toHandle := setDiscard st.toHandle x, points := setAdd st.points x }).points.length
        = st.points.length + 1 := by
  have hxn : x ∉ st.points := hi.disj x hx
  obtain ⟨f1, f2, f3, f4⟩ := groupNeighbour_fold (b := b) c (neighbours x)
    { st with toHandle := setDiscard st.toHandle x, points := setAdd st.points x } (nodup_setDiscard hi.nodupH x)
  simp only at f1 f3 f4
  have hconnx := hi.connH x hx
  refine ⟨?_, ?_⟩
  · constructor
    · rw [f1]; exact nodup_setAdd hi.nodupP
    · exact f2
    · intro q hq
      rw [f1, mem_setAdd, not_or]
      rw [f3] at hq
      rcases hq with hq | ⟨_, _, _, hq⟩
      · have := (mem_setDiscard hi.nodupH).1 hq
        exact ⟨this.1, hi.disj q this.2⟩
      · rw [mem_setAdd, not_or] at hq; exact hq
    · rw [f1, mem_setAdd, f3]
      rcases hi.start with h | h
      · exact Or.inl (Or.inr h)
      · by_cases hpx : p = x
        · exact Or.inl (Or.inl hpx)
        · exact Or.inr (Or.inl ((mem_setDiscard hi.nodupH).2 ⟨hpx, h⟩))
    · intro q hq
      rw [f1, mem_setAdd] at hq
      rcases hq with rfl | hq
      · exact hconnx
      · exact hi.connP q hq
    · intro q hq
      rw [f3] at hq
      rcases hq with hq | ⟨hn, hr, ha, _⟩
      · exact hi.connH q ((mem_setDiscard hi.nodupH).1 hq).2
      · rw [inRange_iff] at hr
        rw [at_eq_pos hwf hr] at ha
        exact .step hconnx (mem_neighbours.1 hn) hr (ha.trans hc.symm)
    · intro q hq r ha hr hpos
      rw [f1, mem_setAdd] at hq
      rw [f1, mem_setAdd, f3, mem_setAdd]
      by_cases hrx : r = x
      · exact Or.inl (Or.inl hrx)
      by_cases hrp : r ∈ st.points
      · exact Or.inl (Or.inr hrp)
      right
      rcases hq with rfl | hq
      · right
        refine ⟨mem_neighbours.2 ha, inRange_iff.2 hr, ?_, ?_⟩
        · rw [at_eq_pos hwf hr]; exact hpos
        · rw [not_or]; exact ⟨hrx, hrp⟩
      · left
        rcases hi.closed q hq r ha hr hpos with h | h
        · exact absurd h hrp
        · exact (mem_setDiscard hi.nodupH).2 ⟨hrx, h⟩
    · rw [f4, hi.surr]
      constructor
      · rintro ⟨h1, h2⟩ q hq r ha hr
        rw [f1, mem_setAdd] at hq
        rcases hq with rfl | hq
        · have := h2 r (mem_neighbours.2 ha) (inRange_iff.2 hr)
          rwa [at_eq_pos hwf hr] at this
        · exact h1 q hq r ha hr
      · intro h
        refine ⟨?_, ?_⟩
        · intro q hq r ha hr
          exact h q (by rw [f1, mem_setAdd]; exact Or.inr hq) r ha hr
        · intro q hn hr
          rw [inRange_iff] at hr
          rw [at_eq_pos hwf hr]
          exact h x (by rw [f1, mem_setAdd]; exact Or.inl rfl) q (mem_neighbours.1 hn) hr
  · rw [f1]; simp [setAdd, hxn]

theorem groupLoop_spec (hwf : b.WF) {p : Pt} {c : Colour} (hp : OnBoard b.side p) (hc : b.pos p = some c)
    (pops : Nat → Nat) (fuel k : Nat) (st : GroupFill) (hi : GFInv b p c st)
    (hfuel : b.side * b.side ≤ fuel + st.points.length) :
    GFInv b p c (b.groupLoop c pops fuel k st) ∧ (b.groupLoop c pops fuel k st).toHandle = [] := by
  induction fuel generalizing k st with
  | zero =>
    simp only [Board.groupLoop]
    refine ⟨hi, ?_⟩
    have h1 : (st.toHandle ++ st.points).Nodup := by
      rw [List.nodup_append]
      refine ⟨hi.nodupH, hi.nodupP, ?_⟩
      rintro a ha _ hb rfl; exact hi.disj a ha hb
    have h2 := length_le_of_nodup_subset h1 (m := boardPoints b.side) (by
      intro x hx
      rw [mem_boardPoints]
      rcases List.mem_append.1 hx with hx | hx
      · exact (hi.connH x hx).onBoard hp
      · exact (hi.connP x hx).onBoard hp)
    rw [length_boardPoints, List.length_append] at h2
    exact List.length_eq_zero_iff.1 (by omega)
  | succ fuel ih =>
    simp only [Board.groupLoop]
    by_cases he : st.toHandle = []
    · have : st.toHandle[popIndex (pops k) st.toHandle]? = none := by simp [he]
      rw [this]; exact ⟨hi, he⟩
    · have hlt := popIndex_lt (k := pops k) he
      rw [List.getElem?_eq_getElem hlt]
      simp only
      have hx := List.getElem_mem hlt
      obtain ⟨g1, g2⟩ := gf_step hwf hp hc hi hx
      exact ih _ _ g1 (by rw [g2]; omega)

theorem makeGroup_spec (hwf : b.WF) (o : Pops) {p : Pt} {c : Colour} (hp : OnBoard b.side p)
    (hc : b.pos p = some c) :
    (b.makeGroup o p c).colour = c ∧ (b.makeGroup o p c).points.Nodup ∧
    (∀ q, q ∈ (b.makeGroup o p c).points ↔ Conn b.side b.pos p q) ∧
    ((b.makeGroup o p c).surrounded = true ↔ ¬ HasLiberty b.side b.pos p) := by
  have h0 : GFInv b p c ⟨[], true, [p]⟩ := by
    constructor
    · simp
    · simp
    · simp
    · simp
    · simp
    · intro q hq; simp at hq; subst hq; exact .refl
    · simp
    · simp
  obtain ⟨h1, h2⟩ := groupLoop_spec hwf hp hc (o p) (b.side * b.side) 0 _ h0 (by simp)
  have hmem : ∀ q, q ∈ (b.makeGroup o p c).points ↔ Conn b.side b.pos p q := by
    intro q
    constructor
    · exact h1.connP q
    · intro h
      induction h with
      | refl =>
        rcases h1.start with h | h
        · exact h
        · rw [h2] at h; simp at h
      | step _ ha hb hpos ih =>
        rcases h1.closed _ ih _ ha hb (hpos.trans hc) with h | h
        · exact h
        · rw [h2] at h; simp at h
  refine ⟨rfl, h1.nodupP, hmem, ?_⟩
  show (b.groupLoop c (o p) (b.side * b.side) 0 ⟨[], true, [p]⟩).surrounded = true ↔ _
  rw [h1.surr]
  constructor
  · rintro h ⟨q, r, hq, ha, hr, hn⟩
    exact h q ((hmem q).2 hq) r ha hr hn
  · intro h q hq r ha hr hn
    exact h ⟨q, r, (hmem q).1 hq, ha, hr, hn⟩

/-! ### empty regions -/

theorem regionNeighbour_fold (nbs : List Pt) (st : RegionFill) (hnd : st.toHandle.Nodup) :
    let st' := nbs.foldl b.regionNeighbour st
    st'.points = st.points ∧ st'.toHandle.Nodup ∧
    (∀ q, q ∈ st'.toHandle ↔
      q ∈ st.toHandle ∨ (q ∈ nbs ∧ b.inRange q = true ∧ b.at q = none ∧ q ∉ st.points)) ∧
    (∀ d, d ∈ st'.colours ↔ d ∈ st.colours ∨ ∃ q ∈ nbs, b.inRange q = true ∧ b.at q = some d) := by
  induction nbs generalizing st with
  | nil => simp [hnd]
  | cons nb nbs ih =>
    simp only [List.foldl_cons]
    have key : (b.regionNeighbour st nb).points = st.points ∧ (b.regionNeighbour st nb).toHandle.Nodup ∧
      (∀ q, q ∈ (b.regionNeighbour st nb).toHandle ↔
        q ∈ st.toHandle ∨ (q = nb ∧ b.inRange q = true ∧ b.at q = none ∧ q ∉ st.points)) ∧
      (∀ d, d ∈ (b.regionNeighbour st nb).colours ↔
        d ∈ st.colours ∨ (b.inRange nb = true ∧ b.at nb = some d)) := by
      unfold Board.regionNeighbour
      by_cases hr : b.inRange nb = true
      · simp only [hr, Bool.not_true, Bool.false_eq_true, if_false]
        cases hb : b.at nb with
        | some d =>
          refine ⟨rfl, hnd, ?_, ?_⟩
          · intro q; constructor
            · exact Or.inl
            · rintro (h | ⟨rfl, _, h, _⟩)
              · exact h
              · rw [hb] at h; simp at h
          · intro e; simp only [mem_setAdd]; grind
        | none =>
          by_cases hin : nb ∈ st.points
          · simp only [hin, not_true, if_false]
            refine ⟨trivial, hnd, ?_, by simp⟩
            intro q; constructor
            · exact Or.inl
            · rintro (h | ⟨rfl, _, _, h⟩)
              · exact h
              · exact absurd hin h
          · simp only [hin, not_false_eq_true, if_true]
            refine ⟨trivial, nodup_setAdd hnd, ?_, by simp⟩
            intro q; rw [mem_setAdd]; constructor
            · rintro (rfl | h)
              · exact Or.inr ⟨rfl, hr, hb, hin⟩
              · exact Or.inl h
            · rintro (h | ⟨rfl, _⟩)
              · exact Or.inr h
              · exact Or.inl rfl
      · simp only [hr, Bool.not_false, if_true]
        refine ⟨trivial, hnd, ?_, by simp⟩
        intro q; constructor
        · exact Or.inl
        · rintro (h | ⟨rfl, h, _⟩)
          · exact h
          · exact absurd h hr
    obtain ⟨k1, k2, k3, k4⟩ := key
    obtain ⟨i1, i2, i3, i4⟩ := ih _ k2
    refine ⟨by rw [i1, k1], i2, ?_, ?_⟩
    · intro q
      rw [i3, k3, k1]
      simp only [List.mem_cons]
      grind
    · intro d
      rw [i4, k4]
      simp only [List.mem_cons]
      grind

structure RFInv (b : Board) (p : Pt) (st : RegionFill) : Prop where
  nodupP : st.points.Nodup
  nodupH : st.toHandle.Nodup
  disj : ∀ q ∈ st.toHandle, q ∉ st.points
  start : p ∈ st.points ∨ p ∈ st.toHandle
  connP : ∀ q ∈ st.points, Conn b.side b.pos p q
  connH : ∀ q ∈ st.toHandle, Conn b.side b.pos p q
  closed : ∀ q ∈ st.points, ∀ r, Adj q r → OnBoard b.side r → b.pos r = none →
    r ∈ st.points ∨ r ∈ st.toHandle
  cols : ∀ d, d ∈ st.colours ↔ ∃ q ∈ st.points, ∃ r, Adj q r ∧ OnBoard b.side r ∧ b.pos r = some d

theorem rf_step (hwf : b.WF) {p : Pt} (hp : OnBoard b.side p) (hc : b.pos p = none)
    {st : RegionFill} (hi : RFInv b p st) {x : Pt} (hx : x ∈ st.toHandle) :
    RFInv b p ((neighbours x).foldl b.regionNeighbour
      { st with toHandle := setDiscard st.toHandle x, points := setAdd st.points x }) ∧
    ((neighbours x).foldl b.regionNeighbour
      { st with toHandle := setDiscard st.toHandle x, points := setAdd st.points x }).points.length
        = st.points.length + 1 := by
  have hxn : x ∉ st.points := hi.disj x hx
  obtain ⟨f1, f2, f3, f4⟩ := regionNeighbour_fold (b := b) (neighbours x)
    { st with toHandle := setDiscard st.toHandle x, points := setAdd st.points x } (nodup_setDiscard hi.nodupH x)
  simp only at f1 f3 f4
  have hconnx := hi.connH x hx
  refine ⟨?_, ?_⟩
  · constructor
    · rw [f1]; exact nodup_setAdd hi.nodupP
    · exact f2
    · intro q hq
      rw [f1, mem_setAdd, not_or]
      rw [f3] at hq
      rcases hq with hq | ⟨_, _, _, hq⟩
      · have := (mem_setDiscard hi.nodupH).1 hq
        exact ⟨this.1, hi.disj q this.2⟩
      · rw [mem_setAdd, not_or] at hq; exact hq
    · rw [f1, mem_setAdd, f3]
      rcases hi.start with h | h
      · exact Or.inl (Or.inr h)
      · by_cases hpx : p = x
        · exact Or.inl (Or.inl hpx)
        · exact Or.inr (Or.inl ((mem_setDiscard hi.nodupH).2 ⟨hpx, h⟩))
    · intro q hq
      rw [f1, mem_setAdd] at hq
      rcases hq with rfl | hq
      · exact hconnx
      · exact hi.connP q hq
    · intro q hq
      rw [f3] at hq
      rcases hq with hq | ⟨hn, hr, ha, _⟩
      · exact hi.connH q ((mem_setDiscard hi.nodupH).1 hq).2
      · rw [inRange_iff] at hr
        rw [at_eq_pos hwf hr] at ha
        exact .step hconnx (mem_neighbours.1 hn) hr (ha.trans hc.symm)
    · intro q hq r ha hr hpos
      rw [f1, mem_setAdd] at hq
      rw [f1, mem_setAdd, f3, mem_setAdd]
      by_cases hrx : r = x
      · exact Or.inl (Or.inl hrx)
      by_cases hrp : r ∈ st.points
      · exact Or.inl (Or.inr hrp)
      right
      rcases hq with rfl | hq
      · right
        refine ⟨mem_neighbours.2 ha, inRange_iff.2 hr, ?_, ?_⟩
        · rw [at_eq_pos hwf hr]; exact hpos
        · rw [not_or]; exact ⟨hrx, hrp⟩
      · left
        rcases hi.closed q hq r ha hr hpos with h | h
        · exact absurd h hrp
        · exact (mem_setDiscard hi.nodupH).2 ⟨hrx, h⟩
    · intro d
      rw [f4, hi.cols]
      constructor
      · rintro (⟨q, hq, h⟩ | ⟨q, hq, hr, ha⟩)
        · exact ⟨q, by rw [f1, mem_setAdd]; exact Or.inr hq, h⟩
        · rw [inRange_iff] at hr
          rw [at_eq_pos hwf hr] at ha
          exact ⟨x, by rw [f1, mem_setAdd]; exact Or.inl rfl, q, mem_neighbours.1 hq, hr, ha⟩
      · rintro ⟨q, hq, r, ha, hr, hpos⟩
        rw [f1, mem_setAdd] at hq
        rcases hq with rfl | hq
        · right
          exact ⟨r, mem_neighbours.2 ha, inRange_iff.2 hr, by rw [at_eq_pos hwf hr]; exact hpos⟩
        · left; exact ⟨q, hq, r, ha, hr, hpos⟩
  · rw [f1]; simp [setAdd, hxn]

theorem regionLoop_spec (hwf : b.WF) {p : Pt} (hp : OnBoard b.side p) (hc : b.pos p = none)
    (pops : Nat → Nat) (fuel k : Nat) (st : RegionFill) (hi : RFInv b p st)
    (hfuel : b.side * b.side ≤ fuel + st.points.length) :
    RFInv b p (b.regionLoop pops fuel k st) ∧ (b.regionLoop pops fuel k st).toHandle = [] := by
  induction fuel generalizing k st with
  | zero =>
    simp only [Board.regionLoop]
    refine ⟨hi, ?_⟩
    have h1 : (st.toHandle ++ st.points).Nodup := by
      rw [List.nodup_append]
      refine ⟨hi.nodupH, hi.nodupP, ?_⟩
      rintro a ha _ hb rfl; exact hi.disj a ha hb
    have h2 := length_le_of_nodup_subset h1 (m := boardPoints b.side) (by
      intro x hx
      rw [mem_boardPoints]
      rcases List.mem_append.1 hx with hx | hx
      · exact (hi.connH x hx).onBoard hp
      · exact (hi.connP x hx).onBoard hp)
    rw [length_boardPoints, List.length_append] at h2
    exact List.length_eq_zero_iff.1 (by omega)
  | succ fuel ih =>
    simp only [Board.regionLoop]
    by_cases he : st.toHandle = []
    · have : st.toHandle[popIndex (pops k) st.toHandle]? = none := by simp [he]
      rw [this]; exact ⟨hi, he⟩
    · have hlt := popIndex_lt (k := pops k) he
      rw [List.getElem?_eq_getElem hlt]
      simp only
      have hx := List.getElem_mem hlt
      obtain ⟨g1, g2⟩ := rf_step hwf hp hc hi hx
      exact ih _ _ g1 (by rw [g2]; omega)

theorem makeEmptyRegion_spec (hwf : b.WF) (o : Pops) {p : Pt} (hp : OnBoard b.side p)
    (hc : b.pos p = none) :
    (b.makeEmptyRegion o p).points.Nodup ∧
    (∀ q, q ∈ (b.makeEmptyRegion o p).points ↔ Conn b.side b.pos p q) ∧
    (∀ d, d ∈ (b.makeEmptyRegion o p).colours ↔ Borders b.side b.pos p (some d)) := by
  have h0 : RFInv b p ⟨[], [], [p]⟩ := by
    constructor
    · simp
    · simp
    · simp
    · simp
    · simp
    · intro q hq; simp at hq; subst hq; exact .refl
    · simp
    · simp
  obtain ⟨h1, h2⟩ := regionLoop_spec hwf hp hc (o p) (b.side * b.side) 0 _ h0 (by simp)
  have hmem : ∀ q, q ∈ (b.makeEmptyRegion o p).points ↔ Conn b.side b.pos p q := by
    intro q
    constructor
    · exact h1.connP q
    · intro h
      induction h with
      | refl =>
        rcases h1.start with h | h
        · exact h
        · rw [h2] at h; simp at h
      | step _ ha hb hpos ih =>
        rcases h1.closed _ ih _ ha hb (hpos.trans hc) with h | h
        · exact h
        · rw [h2] at h; simp at h
  refine ⟨h1.nodupP, hmem, ?_⟩
  intro d
  have := h1.cols d
  rw [show b.makeEmptyRegion o p = b.regionLoop (o p) (b.side * b.side) 0 ⟨[], [], [p]⟩ from rfl, this]
  constructor
  · rintro ⟨q, hq, r, h⟩; exact ⟨q, r, (hmem q).1 hq, h⟩
  · rintro ⟨q, r, hq, h⟩; exact ⟨q, (hmem q).2 hq, r, h⟩

end Gomill
