import Verif.Lemmas.BoardFill
/- `_find_surrounded_groups`, `play` and `apply_setup`. -/
namespace Gomill
open Py Go

variable {b : Board}

/-- What `_find_surrounded_groups` gives: exactly the groups without liberties, each once. -/
structure FSG (b : Board) (gs : List Grp) : Prop where
  each : ∀ g ∈ gs, g.points.Nodup ∧ ∃ p, OnBoard b.side p ∧ b.pos p = some g.colour ∧
    ¬ HasLiberty b.side b.pos p ∧ ∀ q, q ∈ g.points ↔ Conn b.side b.pos p q
  all : ∀ q, OnBoard b.side q → b.pos q ≠ none → ¬ HasLiberty b.side b.pos q → ∃ g ∈ gs, q ∈ g.points
  disj : gs.Pairwise (fun g g' => ∀ q ∈ g.points, q ∉ g'.points)

structure FSGInv (b : Board) (done : List Pt) (st : List Grp × List Pt) : Prop where
  each : ∀ g ∈ st.1, g.points.Nodup ∧ ∃ p, OnBoard b.side p ∧ b.pos p = some g.colour ∧
    ¬ HasLiberty b.side b.pos p ∧ ∀ q, q ∈ g.points ↔ Conn b.side b.pos p q
  disj : st.1.Pairwise (fun g g' => ∀ q ∈ g.points, q ∉ g'.points)
  sub : ∀ g ∈ st.1, ∀ q ∈ g.points, q ∈ st.2
  handled : ∀ q ∈ st.2, OnBoard b.side q ∧ b.pos q ≠ none ∧
    (¬ HasLiberty b.side b.pos q → ∃ g ∈ st.1, q ∈ g.points)
  closed : ∀ q ∈ st.2, ∀ r, Conn b.side b.pos q r → r ∈ st.2
  proc : ∀ q ∈ done, b.pos q ≠ none → q ∈ st.2

theorem fsg_step (hwf : b.WF) (o : Pops) {done : List Pt} {st : List Grp × List Pt} (hi : FSGInv b done st)
    {p : Pt} (hp : OnBoard b.side p) : FSGInv b (done ++ [p]) (b.fsgStep o st p) := by
  unfold Board.fsgStep
  rw [at_eq_pos hwf hp]
  cases hc : b.pos p with
  | none =>
    refine ⟨hi.each, hi.disj, hi.sub, hi.handled, hi.closed, ?_⟩
    intro q hq hne
    rcases List.mem_append.1 hq with h | h
    · exact hi.proc q h hne
    · simp at h; subst h; exact absurd hc hne
  | some c =>
    simp only
    split
    · rename_i hin
      refine ⟨hi.each, hi.disj, hi.sub, hi.handled, hi.closed, ?_⟩
      intro q hq hne
      rcases List.mem_append.1 hq with h | h
      · exact hi.proc q h hne
      · simp at h; subst h; exact hin
    · rename_i hnin
      obtain ⟨m1, m2, m3, m4⟩ := makeGroup_spec hwf o hp hc
      generalize hg : b.makeGroup o p c = g at *
      have hfresh : ∀ q ∈ g.points, q ∉ st.2 := by
        intro q hq hc'
        exact hnin (hi.closed q hc' p (((m3 q).1 hq).symm hp))
      have hsurr_mem : ∀ x ∈ (if g.surrounded = true then st.1 ++ [g] else st.1), x ∈ st.1 ∨ (x = g ∧ g.surrounded = true) := by
        intro x hx
        split at hx
        · rename_i hs
          rcases List.mem_append.1 hx with h | h
          · exact Or.inl h
          · simp at h; exact Or.inr ⟨h, hs⟩
        · exact Or.inl hx
      have hsub_mem : ∀ x ∈ st.1, x ∈ (if g.surrounded = true then st.1 ++ [g] else st.1) := by
        intro x hx; split <;> simp [hx]
      constructor
      · intro x hx
        rcases hsurr_mem x hx with h | ⟨rfl, hs⟩
        · exact hi.each x h
        · exact ⟨m2, p, hp, by rw [hc, m1], m4.1 hs, m3⟩
      · show List.Pairwise _ (if g.surrounded = true then st.1 ++ [g] else st.1)
        split
        · rw [List.pairwise_append]
          refine ⟨hi.disj, by simp, ?_⟩
          intro x hx y hy q hq hq'
          simp at hy; subst hy
          exact hfresh q hq' (hi.sub x hx q hq)
        · exact hi.disj
      · intro x hx q hq
        rw [mem_setUpdate]
        rcases hsurr_mem x hx with h | ⟨rfl, hs⟩
        · exact Or.inl (hi.sub x h q hq)
        · exact Or.inr hq
      · intro q hq
        simp only [mem_setUpdate] at hq
        rcases hq with hq | hq
        · obtain ⟨h1, h2, h3⟩ := hi.handled q hq
          refine ⟨h1, h2, fun hl => ?_⟩
          obtain ⟨x, hx, hqx⟩ := h3 hl
          exact ⟨x, hsub_mem x hx, hqx⟩
        · have hconn := (m3 q).1 hq
          refine ⟨hconn.onBoard hp, by rw [hconn.content, hc]; simp, fun hl => ?_⟩
          have hs : g.surrounded = true := m4.2 (fun h => hl ((HasLiberty.congr hconn hp).1 h))
          exact ⟨g, by simp [hs], hq⟩
      · intro q hq r hr
        simp only [mem_setUpdate] at hq ⊢
        rcases hq with hq | hq
        · exact Or.inl (hi.closed q hq r hr)
        · exact Or.inr ((m3 r).2 (((m3 q).1 hq).trans hr))
      · intro q hq hne
        rw [mem_setUpdate]
        rcases List.mem_append.1 hq with h | h
        · exact Or.inl (hi.proc q h hne)
        · simp at h; subst h; exact Or.inr ((m3 q).2 .refl)

theorem fsg_fold (hwf : b.WF) (o : Pops) (todo done : List Pt) (st : List Grp × List Pt)
    (hi : FSGInv b done st) (ht : ∀ p ∈ todo, OnBoard b.side p) :
    FSGInv b (done ++ todo) (todo.foldl (b.fsgStep o) st) := by
  induction todo generalizing done st with
  | nil => simpa using hi
  | cons p todo ih =>
    have := ih (done ++ [p]) _ (fsg_step hwf o hi (ht p (by simp))) (fun q hq => ht q (by simp [hq]))
    simpa using this

theorem findSurroundedGroups_spec (hwf : b.WF) (o : Pops) : FSG b (b.findSurroundedGroups o) := by
  have h0 : FSGInv b [] ([], []) := by constructor <;> simp
  have h := fsg_fold hwf o (boardPoints b.side) [] ([], []) h0 (fun p hp => mem_boardPoints.1 hp)
  refine ⟨h.each, ?_, h.disj⟩
  intro q hq hne hl
  have := h.proc q (by simpa using mem_boardPoints.2 hq) hne
  exact (h.handled q this).2.2 hl

theorem FSG.not_dead_iff {gs : List Grp} (h : FSG b gs) {q : Pt} :
    (∃ g ∈ gs, q ∈ g.points) ↔ (OnBoard b.side q ∧ b.pos q ≠ none ∧ ¬ HasLiberty b.side b.pos q) := by
  constructor
  · rintro ⟨g, hg, hq⟩
    obtain ⟨_, p, hp, hc, hl, hmem⟩ := h.each g hg
    have hconn := (hmem q).1 hq
    refine ⟨hconn.onBoard hp, by rw [hconn.content, hc]; simp, fun h => hl ((HasLiberty.congr hconn hp).2 h)⟩
  · rintro ⟨h1, h2, h3⟩; exact h.all q h1 h2 h3

theorem FSG.colour_of_mem {gs : List Grp} (h : FSG b gs) {g : Grp} (hg : g ∈ gs) {q : Pt} (hq : q ∈ g.points) :
    Dead b.side b.pos g.colour q := by
  obtain ⟨_, p, hp, hc, hl, hmem⟩ := h.each g hg
  have hconn := (hmem q).1 hq
  exact ⟨hconn.onBoard hp, by rw [hconn.content, hc], fun h => hl ((HasLiberty.congr hconn hp).2 h)⟩

theorem FSG.nonempty {gs : List Grp} (h : FSG b gs) {g : Grp} (hg : g ∈ gs) : ∃ q, q ∈ g.points := by
  obtain ⟨_, p, hp, hc, hl, hmem⟩ := h.each g hg
  exact ⟨p, (hmem p).2 .refl⟩

theorem FSG.dead_mem {gs : List Grp} (h : FSG b gs) {c : Colour} {q : Pt} (hd : Dead b.side b.pos c q) :
    ∃ g ∈ gs, g.colour = c ∧ q ∈ g.points := by
  obtain ⟨g, hg, hq⟩ := h.all q hd.1 (by rw [hd.2.1]; simp) hd.2.2
  refine ⟨g, hg, ?_, hq⟩
  have := (h.colour_of_mem hg hq).2.1
  rw [hd.2.1] at this
  exact (Option.some.inj this).symm

/-- Groups are equal as soon as they share a connected pair of points (they are maximal). -/
theorem FSG.mem_of_conn {gs : List Grp} (h : FSG b gs) {g : Grp} (hg : g ∈ gs) {q r : Pt} (hq : q ∈ g.points)
    (hc : Conn b.side b.pos q r) : r ∈ g.points := by
  obtain ⟨_, p, hp, _, _, hmem⟩ := h.each g hg
  exact (hmem r).2 (((hmem q).1 hq).trans hc)

/-! ### clearing groups -/

theorem clearPoints_spec (hwf : b.WF) (ps : List Pt) (hps : ∀ p ∈ ps, OnBoard b.side p) :
    let b' := ps.foldl (fun b p => b.put p none) b
    b'.side = b.side ∧ b'.emptyFlag = b.emptyFlag ∧ b'.WF ∧
      ∀ q, b'.pos q = if q ∈ ps then none else b.pos q := by
  induction ps generalizing b with
  | nil => exact ⟨rfl, rfl, hwf, by simp⟩
  | cons p ps ih =>
    simp only [List.foldl_cons]
    obtain ⟨p1, p2, p3, p4⟩ := put_spec hwf (hps p (by simp)) none
    obtain ⟨i1, i2, i3, i4⟩ := ih p3 (fun q hq => by rw [p1]; exact hps q (by simp [hq]))
    refine ⟨by rw [i1, p1], by rw [i2, p2], i3, ?_⟩
    intro q
    rw [i4, p4]
    unfold Go.put
    by_cases h1 : q ∈ ps <;> by_cases h2 : q = p <;> simp [h1, h2]

theorem clearGroups_spec (hwf : b.WF) (gs : List Grp) (hgs : ∀ g ∈ gs, ∀ p ∈ g.points, OnBoard b.side p) :
    (b.clearGroups gs).side = b.side ∧ (b.clearGroups gs).emptyFlag = b.emptyFlag ∧ (b.clearGroups gs).WF ∧
      (b.clearGroups gs).pos = remove b.pos (fun q => ∃ g ∈ gs, q ∈ g.points) := by
  unfold Board.clearGroups
  induction gs generalizing b with
  | nil => refine ⟨rfl, rfl, hwf, ?_⟩; funext q; simp [remove]
  | cons g gs ih =>
    simp only [List.foldl_cons]
    obtain ⟨p1, p2, p3, p4⟩ := clearPoints_spec hwf g.points (hgs g (by simp))
    obtain ⟨i1, i2, i3, i4⟩ := ih p3 (fun x hx p hp => by rw [p1]; exact hgs x (by simp [hx]) p hp)
    refine ⟨by rw [i1, p1], by rw [i2, p2], i3, ?_⟩
    rw [i4]
    funext q
    simp only [remove, List.mem_cons, exists_eq_or_imp]
    by_cases h1 : ∃ x ∈ gs, q ∈ x.points
    · simp [h1]
    · by_cases h2 : q ∈ g.points
      · simp [h1, h2, p4]
      · simp [h1, h2, p4]

/-- Boards which look the same through `get` (and have the same flag) are the same. -/
theorem board_ext {b b' : Board} (h : b.WF) (h' : b'.WF) (hs : b.side = b'.side)
    (hf : b.emptyFlag = b'.emptyFlag) (hp : ∀ p, OnBoard b.side p → b.pos p = b'.pos p) : b = b' := by
  have hrows : b.rows = b'.rows := by
    apply List.ext_getElem
    · rw [h.len, h'.len, hs]
    · intro i hi hi'
      apply List.ext_getElem
      · rw [h.rows _ (List.getElem_mem hi), h'.rows _ (List.getElem_mem hi'), hs]
      · intro j hj hj'
        have hir : i < b.side := by rw [← h.len]; exact hi
        have hjr : j < b.side := by rw [← h.rows _ (List.getElem_mem hi)]; exact hj
        have hon : OnBoard b.side ((i : Int), (j : Int)) := by unfold OnBoard; simp; omega
        obtain ⟨_, _, e1⟩ := item_eq h (r := (i:Int)) (c := (j:Int)) hon
        obtain ⟨_, _, e2⟩ := item_eq h' (r := (i:Int)) (c := (j:Int)) (by rw [← hs]; exact hon)
        have e1' := item_ok h hon
        have e2' := item_ok h' (p := ((i:Int), (j:Int))) (by rw [← hs]; exact hon)
        simp only at e1' e2'
        rw [e1'] at e1; rw [e2'] at e2
        have e1 := Except.ok.inj e1
        have e2 := Except.ok.inj e2
        simp only [Int.toNat_natCast] at e1 e2
        rw [← e1, ← e2]
        exact hp _ hon
  cases b; cases b'; simp at *; exact ⟨hs, hrows, hf⟩

end Gomill
