import Mathlib.Data.List.Perm.Basic
import Mathlib.Data.Set.Card
import Verif.Lemmas.BoardRules
/- `apply_setup`, `area_score`. -/
namespace Gomill
open Py Go

variable {b : Board}

theorem putMany_spec (hwf : b.WF) (x : Option Colour) (ps : List Pt) (hps : ∀ p ∈ ps, OnBoard b.side p) :
    let b' := ps.foldl (fun b p => b.put p x) b
    b'.side = b.side ∧ b'.emptyFlag = b.emptyFlag ∧ b'.WF ∧
      ∀ q, b'.pos q = if q ∈ ps then x else b.pos q := by
  induction ps generalizing b with
  | nil => exact ⟨rfl, rfl, hwf, by simp⟩
  | cons p ps ih =>
    simp only [List.foldl_cons]
    obtain ⟨p1, p2, p3, p4⟩ := put_spec hwf (hps p (by simp)) x
    obtain ⟨i1, i2, i3, i4⟩ := ih p3 (fun q hq => by rw [p1]; exact hps q (by simp [hq]))
    refine ⟨by rw [i1, p1], by rw [i2, p2], i3, ?_⟩
    intro q
    rw [i4, p4]
    unfold Go.put
    by_cases h1 : q ∈ ps <;> by_cases h2 : q = p <;> simp [h1, h2]

theorem setup_range {b : Board} {ps : List Pt} :
    ps.any (fun p => decide (p.1 < 0) || decide (p.2 < 0) || decide (p.1 ≥ b.side) || decide (p.2 ≥ b.side)) = false ↔
      ∀ p ∈ ps, OnBoard b.side p := by
  rw [List.any_eq_false]
  constructor
  · intro h p hp
    have := h p hp
    simp only [Bool.or_eq_true, decide_eq_true_eq] at this
    unfold OnBoard; omega
  · intro h p hp
    have := h p hp
    simp only [Bool.or_eq_true, decide_eq_true_eq]
    unfold OnBoard at this; omega

theorem applySetupWith_spec (hwf : b.WF) (o : Pops) {black white empty : List Pt}
    (hr : ∀ p ∈ black ++ white ++ empty, OnBoard b.side p) :
    ∃ legal b', b.applySetupWith o black white empty = .ok (legal, b') ∧ b'.side = b.side ∧ b'.WF ∧
      (legal = true ↔ Legal b.side (setupPos b.pos black white empty)) ∧
      b'.pos = remove (setupPos b.pos black white empty) (fun q => OnBoard b.side q ∧
        setupPos b.pos black white empty q ≠ none ∧ ¬ HasLiberty b.side (setupPos b.pos black white empty) q) ∧
      (b'.emptyFlag = true ↔ ∀ q, b'.pos q = none) := by
  unfold Board.applySetupWith
  rw [if_neg (by rw [Bool.not_eq_true]; exact setup_range.2 hr)]
  simp only
  obtain ⟨a1, _, a3, a4⟩ := putMany_spec hwf (some .b) black (fun p hp => hr p (by simp [hp]))
  generalize black.foldl (fun b p => b.put p (some .b)) b = b1 at *
  obtain ⟨w1, _, w3, w4⟩ := putMany_spec a3 (some .w) white (fun p hp => by rw [a1]; exact hr p (by simp [hp]))
  generalize white.foldl (fun b p => b.put p (some .w)) b1 = b2 at *
  obtain ⟨e1, _, e3, e4⟩ := putMany_spec w3 none empty (fun p hp => by rw [w1, a1]; exact hr p (by simp [hp]))
  generalize empty.foldl (fun b p => b.put p none) b2 = b3 at *
  have hpos : b3.pos = setupPos b.pos black white empty := by
    funext q; rw [e4, w4, a4]; rfl
  have hs : b3.side = b.side := by rw [e1, w1, a1]
  have hg := findSurroundedGroups_spec e3 o
  generalize b3.findSurroundedGroups o = gs at *
  obtain ⟨c1, c2, c3, c4⟩ := clearGroups_spec e3 gs (fun g hgm q hq => (hg.colour_of_mem hgm hq).1)
  refine ⟨_, _, rfl, by simp only; rw [c1, hs], WF.withFlag c3 _, ?_, ?_, ?_⟩
  · rw [List.isEmpty_iff, ← hpos, ← hs]
    constructor
    · intro h q hq hne
      apply Classical.byContradiction
      intro hl
      obtain ⟨g, hgm, _⟩ := hg.all q hq hne hl
      rw [h] at hgm; simp at hgm
    · intro h
      cases gs with
      | nil => rfl
      | cons g gs =>
        obtain ⟨_, p, hp, hc, hl, _⟩ := hg.each g (by simp)
        exact absurd (h p hp (by rw [hc]; simp)) hl
  · rw [pos_withFlag, c4, ← hpos, ← hs]
    apply remove_congr
    intro q; exact hg.not_dead_iff
  · rw [pos_withFlag]
    simp only [Bool.not_eq_true', List.any_eq_false, decide_eq_true_eq, ne_eq, Decidable.not_not]
    constructor
    · intro h q
      by_cases hq : OnBoard (b3.clearGroups gs).side q
      · have := h q (mem_boardPoints.2 hq)
        rwa [at_eq_pos c3 hq] at this
      · exact pos_off c3 hq
    · intro h q hq
      rw [at_eq_pos c3 (mem_boardPoints.1 hq)]
      exact h q

theorem applySetupWith_off (o : Pops) {black white empty : List Pt}
    (hr : ¬ ∀ p ∈ black ++ white ++ empty, OnBoard b.side p) :
    b.applySetupWith o black white empty = .error .indexError := by
  unfold Board.applySetupWith
  rw [if_pos]
  apply Classical.byContradiction
  intro h
  rw [Bool.not_eq_true] at h
  exact hr (setup_range.1 h)

/-! ### area score -/

open Classical in
theorem ncard_board (n : Nat) (P : Pt → Prop) :
    {q | OnBoard n q ∧ P q}.ncard = (boardPoints n).countP (fun q => decide (P q)) := by
  have : {q | OnBoard n q ∧ P q} = (((boardPoints n).filter (fun q => decide (P q))).toFinset : Set Pt) := by
    ext q; simp [mem_boardPoints]
  rw [this, Set.ncard_coe_finset, List.toFinset_card_of_nodup ((nodup_boardPoints n).filter _),
    List.countP_eq_length_filter]

theorem setUpdate_perm {α} [DecidableEq α] {s xs : List α} (hx : xs.Nodup) (hd : ∀ y ∈ xs, y ∉ s) :
    (setUpdate s xs).Perm (s ++ xs) := by
  unfold setUpdate
  induction xs generalizing s with
  | nil => simp
  | cons x xs ih =>
    have hx' := List.nodup_cons.1 hx
    have hxs : x ∉ s := hd x (by simp)
    simp only [List.foldl_cons]
    have h1 : setAdd s x = x :: s := by simp [setAdd, hxs]
    rw [h1]
    refine (ih hx'.2 ?_).trans ?_
    · intro y hy
      simp only [List.mem_cons, not_or]
      refine ⟨?_, hd y (by simp [hy])⟩
      rintro rfl; exact hx'.1 hy
    · simpa using List.perm_middle.symm

structure AInv (b : Board) (done : List Pt) (st : Int × Int × List Pt) : Prop where
  nodup : st.2.2.Nodup
  handled : ∀ q ∈ st.2.2, OnBoard b.side q ∧ b.pos q = none
  closed : ∀ q ∈ st.2.2, ∀ r, Conn b.side b.pos q r → r ∈ st.2.2
  proc : ∀ q ∈ done, b.pos q = none → q ∈ st.2.2
  black : ∀ [DecidablePred (fun q => Borders b.side b.pos q (some .b))],
    st.1 = (done.countP (fun q => decide (b.pos q = some .b)) : Int) +
      st.2.2.countP (fun q => decide (Borders b.side b.pos q (some .b)))
  white : ∀ [DecidablePred (fun q => Borders b.side b.pos q (some .w))],
    st.2.1 = (done.countP (fun q => decide (b.pos q = some .w)) : Int) +
      st.2.2.countP (fun q => decide (Borders b.side b.pos q (some .w)))

theorem area_step (hwf : b.WF) (o : Pops) {done : List Pt} {st : Int × Int × List Pt} (hi : AInv b done st)
    {p : Pt} (hp : OnBoard b.side p) : AInv b (done ++ [p]) (b.areaStep o st p) := by
  unfold Board.areaStep
  rw [at_eq_pos hwf hp]
  match hc : b.pos p with
  | some .b =>
    refine ⟨hi.nodup, hi.handled, hi.closed, ?_, ?_, ?_⟩
    · intro q hq hne
      rcases List.mem_append.1 hq with h | h
      · exact hi.proc q h hne
      · simp at h; subst h; rw [hc] at hne; simp at hne
    · intro _; simp [hi.black, List.countP_cons, hc]; omega
    · intro _; simp [hi.white, List.countP_cons, hc]
  | some .w =>
    refine ⟨hi.nodup, hi.handled, hi.closed, ?_, ?_, ?_⟩
    · intro q hq hne
      rcases List.mem_append.1 hq with h | h
      · exact hi.proc q h hne
      · simp at h; subst h; rw [hc] at hne; simp at hne
    · intro _; simp [hi.black, List.countP_cons, hc]
    · intro _; simp [hi.white, List.countP_cons, hc]; omega
  | none =>
    simp only
    split
    · rename_i hin
      refine ⟨hi.nodup, hi.handled, hi.closed, ?_, ?_, ?_⟩
      · intro q hq hne
        rcases List.mem_append.1 hq with h | h
        · exact hi.proc q h hne
        · simp at h; subst h; exact hin
      · intro _; simp [hi.black, List.countP_cons, hc]
      · intro _; simp [hi.white, List.countP_cons, hc]
    · rename_i hnin
      obtain ⟨m1, m2, m3⟩ := makeEmptyRegion_spec hwf o hp hc
      generalize b.makeEmptyRegion o p = g at *
      have hfresh : ∀ q ∈ g.points, q ∉ st.2.2 := by
        intro q hq hc'
        exact hnin (hi.closed q hc' p (((m2 q).1 hq).symm hp))
      have hperm := setUpdate_perm m1 hfresh
      have hcount : ∀ (d : Colour) [DecidablePred (fun q => Borders b.side b.pos q (some d))],
          (g.points.countP (fun q => decide (Borders b.side b.pos q (some d))) : Int) =
            if d ∈ g.colours then (g.points.length : Int) else 0 := by
        intro d _
        split
        · rename_i hd
          rw [m3] at hd
          rw [List.countP_eq_length.2]
          intro q hq
          simp only [decide_eq_true_eq]
          exact (Borders.congr ((m2 q).1 hq) hp _).1 hd
        · rename_i hd
          rw [m3] at hd
          rw [List.countP_eq_zero.2]
          · rfl
          · intro q hq
            simp only [decide_eq_true_eq]
            intro h
            exact hd ((Borders.congr ((m2 q).1 hq) hp _).2 h)
      refine ⟨nodup_setUpdate hi.nodup, ?_, ?_, ?_, ?_, ?_⟩
      · intro q hq
        simp only [mem_setUpdate] at hq
        rcases hq with hq | hq
        · exact hi.handled q hq
        · have hconn := (m2 q).1 hq
          exact ⟨hconn.onBoard hp, by rw [hconn.content, hc]⟩
      · intro q hq r hr
        simp only [mem_setUpdate] at hq ⊢
        rcases hq with hq | hq
        · exact Or.inl (hi.closed q hq r hr)
        · exact Or.inr ((m2 r).2 (((m2 q).1 hq).trans hr))
      · intro q hq hne
        simp only [mem_setUpdate]
        rcases List.mem_append.1 hq with h | h
        · exact Or.inl (hi.proc q h hne)
        · simp at h; subst h; exact Or.inr ((m2 q).2 .refl)
      · intro _
        simp only
        rw [hperm.countP_eq, List.countP_append, List.countP_append]
        have := hcount .b
        have := hi.black
        simp only [List.countP_cons, List.countP_nil, hc, reduceCtorEq, decide_false]
        split <;> simp_all <;> omega
      · intro _
        simp only
        rw [hperm.countP_eq, List.countP_append, List.countP_append]
        have := hcount .w
        have := hi.white
        simp only [List.countP_cons, List.countP_nil, hc, reduceCtorEq, decide_false]
        split <;> simp_all <;> omega

theorem area_fold (hwf : b.WF) (o : Pops) (todo done : List Pt) (st : Int × Int × List Pt)
    (hi : AInv b done st) (ht : ∀ p ∈ todo, OnBoard b.side p) :
    AInv b (done ++ todo) (todo.foldl (b.areaStep o) st) := by
  induction todo generalizing done st with
  | nil => simpa using hi
  | cons p todo ih =>
    have := ih (done ++ [p]) _ (area_step hwf o hi (ht p (by simp))) (fun q hq => ht q (by simp [hq]))
    simpa using this

theorem countP_or {l : List Pt} {P Q R : Pt → Bool} (hR : ∀ q, R q = true ↔ P q = true ∨ Q q = true)
    (h : ∀ q ∈ l, P q = true → ¬ Q q = true) :
    l.countP R = l.countP P + l.countP Q := by
  induction l with
  | nil => rfl
  | cons a l ih =>
    have := ih (fun q hq => h q (by simp [hq]))
    have ha := h a (by simp)
    simp only [List.countP_cons, this, hR]
    by_cases h1 : P a = true
    · have := ha h1; simp [h1, this]; omega
    · by_cases h2 : Q a = true <;> simp [h1, h2]; omega

open Classical in
theorem areaScoreWith_spec (hwf : b.WF) (o : Pops) :
    b.areaScoreWith o =
      ({q | OnBoard b.side q ∧ CountsFor b.side b.pos .b q}.ncard : Int) -
      ({q | OnBoard b.side q ∧ CountsFor b.side b.pos .w q}.ncard : Int) := by
  have h0 : AInv b [] (0, 0, []) := by constructor <;> simp
  have h := area_fold hwf o (boardPoints b.side) [] (0, 0, []) h0 (fun p hp => mem_boardPoints.1 hp)
  unfold Board.areaScoreWith
  simp only
  generalize (boardPoints b.side).foldl (b.areaStep o) (0, 0, []) = st at *
  simp only [List.nil_append] at h
  have hH : st.2.2.Perm ((boardPoints b.side).filter (fun q => decide (b.pos q = none))) := by
    rw [List.perm_ext_iff_of_nodup h.nodup ((nodup_boardPoints _).filter _)]
    intro q
    rw [List.mem_filter, mem_boardPoints, decide_eq_true_eq]
    constructor
    · exact h.handled q
    · rintro ⟨h1, h2⟩; exact h.proc q (mem_boardPoints.2 h1) h2
  have key : ∀ d : Colour, ({q | OnBoard b.side q ∧ CountsFor b.side b.pos d q}.ncard) =
      (boardPoints b.side).countP (fun q => decide (b.pos q = some d)) +
        st.2.2.countP (fun q => decide (Borders b.side b.pos q (some d))) := by
    intro d
    rw [ncard_board]
    unfold CountsFor
    rw [countP_or (P := fun q => decide (b.pos q = some d))
      (Q := fun q => decide (b.pos q = none ∧ Borders b.side b.pos q (some d))) (by intro q; simp)]
    · rw [hH.countP_eq, List.countP_filter]
      congr 1
      apply List.countP_congr
      intro q _
      simp [and_comm]
    · intro q _ h1 h2; simp at h1 h2; rw [h1] at h2; simp at h2
  rw [key, key, h.black, h.white]
  push_cast
  rfl

end Gomill
