import Verif.Model.Schedulers
import Verif.Spec.Schedulers
import Verif.Lemmas.Py
namespace Gomill.Sched
open Py SchedSpec

/-- Operations a user may perform on a Simple_scheduler. -/
inductive Op where
  | issue
  | fix (t : Nat)
  | rollback
  | reload      -- pickle, then unpickle
  deriving Repr

/-- Perform an operation, logging what the user sees. A fix() which raises logs nothing. -/
def stepLog (p : Simple × List Ev) : Op → Simple × List Ev
  | .issue => (p.1.issue.2, .issued p.1.issue.1 :: p.2)
  | .fix t => match p.1.fix t with
    | .ok s => (s, .fixed t :: p.2)
    | .error _ => p
  | .rollback => (p.1.rollback, .rolledBack :: p.2)
  | .reload => (Simple.setstate p.1.getstate, p.2)

def runLog (ops : List Op) : Simple × List Ev := ops.foldl stepLog (Simple.init, [])

/-- Outputs of `k` consecutive issue() calls. -/
def issueMany : Nat → Simple → List Nat × Simple
  | 0, s => ([], s)
  | k+1, s =>
    let r := s.issue
    let rest := issueMany k r.2
    (r.1 :: rest.1, rest.2)

structure Inv (s : Simple) (l : List Ev) : Prop where
  live_eq : s.outstanding = live l
  nodupO : s.outstanding.Nodup
  nodupR : s.toReissue.Nodup
  nodupF : (fixedTokens l).Nodup
  disOR : ∀ t ∈ s.outstanding, t ∉ s.toReissue
  disOF : ∀ t ∈ s.outstanding, t ∉ fixedTokens l
  disRF : ∀ t ∈ s.toReissue, t ∉ fixedTokens l
  cover : ∀ t, t < s.nextNew ↔ t ∈ s.outstanding ∨ t ∈ s.toReissue ∨ t ∈ fixedTokens l
  ever : ∀ t, t < s.nextNew ↔ t ∈ everIssued l
  fixedN : s.fixed = (fixedTokens l).length
  issuedN : s.issued = (fixedTokens l).length + s.outstanding.length

theorem inv_init : Inv Simple.init [] := by
  constructor <;> simp [Simple.init, live, fixedTokens, everIssued]

theorem perm_range_of_nodup {l : List Nat} {n : Nat} (hn : l.Nodup) (h : ∀ t, t < n ↔ t ∈ l) :
    l.length = n := by
  have : l.Perm (List.range n) := by
    rw [List.perm_ext_iff_of_nodup hn List.nodup_range]
    intro a; rw [List.mem_range]; exact (h a).symm
  simpa using this.length_eq

theorem Inv.nextNew_eq {s l} (h : Inv s l) :
    s.nextNew = s.outstanding.length + s.toReissue.length + (fixedTokens l).length := by
  have := perm_range_of_nodup (l := s.outstanding ++ (s.toReissue ++ fixedTokens l)) (n := s.nextNew)
    (by
      rw [List.nodup_append, List.nodup_append]
      refine ⟨h.nodupO, ⟨h.nodupR, h.nodupF, ?_⟩, ?_⟩
      · rintro a ha b hb rfl; exact h.disRF a ha hb
      · rintro a ha b hb rfl
        rcases List.mem_append.1 hb with hb | hb
        · exact h.disOR a ha hb
        · exact h.disOF a ha hb)
    (by intro t; simp [h.cover t])
  simp at this; omega

theorem inv_issue {s l} (h : Inv s l) : Inv s.issue.2 (.issued s.issue.1 :: l) := by
  obtain ⟨h1,h2,h3,h4,h5,h6,h7,h8,h9,h10,h11⟩ := h
  unfold Simple.issue
  cases hm : s.toReissue.min? with
  | some r =>
    have hr : r ∈ s.toReissue := List.min?_mem hm
    have hrO : r ∉ s.outstanding := fun hc => h5 r hc hr
    constructor
    · simp only [setAdd, hrO, live, if_false]; rw [h1]
    · exact nodup_setAdd h2
    · exact h3.erase r
    · exact h4
    · intro t ht
      simp only [mem_setAdd] at ht
      simp only [setDiscard]
      rw [h3.mem_erase_iff]
      rintro ⟨hne, hin⟩
      rcases ht with ht | ht
      · exact hne ht
      · exact h5 t ht hin
    · intro t ht
      simp only [mem_setAdd] at ht
      rcases ht with rfl | ht
      · exact h7 _ hr
      · exact h6 t ht
    · intro t ht
      exact h7 t (List.mem_of_mem_erase ht)
    · intro t
      simp only [mem_setAdd, setDiscard, fixedTokens]
      rw [h3.mem_erase_iff, h8]
      grind
    · intro t
      simp only [everIssued, List.mem_cons]
      rw [h9]
      constructor
      · exact Or.inr
      · rintro (rfl | h)
        · exact (h9 _).1 ((h8 _).2 (Or.inr (Or.inl hr)))
        · exact h
    · exact h10
    · simp [setAdd, hrO, fixedTokens, h11]; omega
  | none =>
    have hr : s.toReissue = [] := by simpa using hm
    have hrO : s.nextNew ∉ s.outstanding := fun hc => by
      have := (h8 s.nextNew).2 (Or.inl hc); omega
    constructor
    · simp only [setAdd, hrO, live, if_false]; rw [h1]
    · exact nodup_setAdd h2
    · exact h3
    · exact h4
    · intro t ht; simp [hr]
    · intro t ht
      simp only [mem_setAdd] at ht
      rcases ht with rfl | ht
      · intro hc
        have := (h8 s.nextNew).2 (Or.inr (Or.inr hc)); omega
      · exact h6 t ht
    · exact h7
    · intro t
      simp only [mem_setAdd, fixedTokens]
      rw [show t < s.nextNew + 1 ↔ t = s.nextNew ∨ t < s.nextNew by omega, h8]
      grind
    · intro t
      simp only [everIssued, List.mem_cons]
      rw [show t < s.nextNew + 1 ↔ t = s.nextNew ∨ t < s.nextNew by omega, h9]
    · exact h10
    · simp [setAdd, hrO, fixedTokens, h11]; omega

theorem inv_fix {s l s' t} (h : Inv s l) (hf : s.fix t = .ok s') : Inv s' (.fixed t :: l) := by
  obtain ⟨h1,h2,h3,h4,h5,h6,h7,h8,h9,h10,h11⟩ := h
  unfold Simple.fix setRemove at hf
  split at hf
  case isFalse => simp [bind, Except.bind] at hf
  case isTrue ht =>
  simp only [bind, Except.bind, pure, Except.pure, Except.ok.injEq] at hf
  subst hf
  constructor
  · simp [live, h1]
  · exact h2.erase t
  · exact h3
  · simp only [fixedTokens]; exact List.nodup_cons.2 ⟨h6 t ht, h4⟩
  · intro u hu; exact h5 u (List.mem_of_mem_erase hu)
  · intro u hu
    have hu' := (h2.mem_erase_iff).1 hu
    simp only [fixedTokens, List.mem_cons, not_or]
    exact ⟨hu'.1, h6 u hu'.2⟩
  · intro u hu
    simp only [fixedTokens, List.mem_cons, not_or]
    refine ⟨?_, h7 u hu⟩
    rintro rfl; exact h5 _ ht hu
  · intro u
    simp only [fixedTokens, List.mem_cons]
    rw [h2.mem_erase_iff, h8]
    grind
  · exact h9
  · simp [fixedTokens, h10]
  · have : 0 < s.outstanding.length := List.length_pos_of_mem ht
    simp [fixedTokens, h11, List.length_erase_of_mem ht]
    omega

theorem inv_rollback {s l} (h : Inv s l) : Inv s.rollback (.rolledBack :: l) := by
  obtain ⟨h1,h2,h3,h4,h5,h6,h7,h8,h9,h10,h11⟩ := h
  unfold Simple.rollback
  constructor
  · simp [live]
  · simp
  · exact nodup_setUpdate h3
  · exact h4
  · simp
  · simp
  · intro t ht
    simp only [mem_setUpdate] at ht
    simp only [fixedTokens]
    rcases ht with ht | ht
    · exact h7 t ht
    · exact h6 t ht
  · intro t
    simp only [mem_setUpdate, fixedTokens]
    rw [h8]; grind
  · exact h9
  · exact h10
  · simp [fixedTokens, h11]

theorem Inv.reload_eq {s l} (h : Inv s l) : Simple.setstate s.getstate = s := by
  have hn := h.nextNew_eq
  have h10 := h.fixedN
  have h11 := h.issuedN
  unfold Simple.setstate Simple.getstate
  cases s
  simp at *
  omega

theorem inv_step {p : Simple × List Ev} (h : Inv p.1 p.2) (op : Op) :
    Inv (stepLog p op).1 (stepLog p op).2 := by
  cases op with
  | issue => exact inv_issue h
  | fix t =>
    cases hf : p.1.fix t with
    | ok s => simp only [stepLog, hf]; exact inv_fix h hf
    | error e => simp only [stepLog, hf]; exact h
  | rollback => exact inv_rollback h
  | reload => simp only [stepLog, h.reload_eq]; exact h

theorem inv_foldl (ops : List Op) {p : Simple × List Ev} (h : Inv p.1 p.2) :
    Inv (ops.foldl stepLog p).1 (ops.foldl stepLog p).2 := by
  induction ops generalizing p with
  | nil => exact h
  | cons op ops ih => exact ih (inv_step h op)

theorem inv_run (ops : List Op) : Inv (runLog ops).1 (runLog ops).2 :=
  inv_foldl ops (p := (Simple.init, [])) inv_init

/-- Consecutive `issue()` calls first drain `to_reissue` in increasing order, then give fresh tokens. -/
theorem issueMany_spec (k : Nat) {s : Simple} {l : List Ev} (h : Inv s l)
    {w : List Nat} (hw : w.Pairwise (· < ·)) (hmem : ∀ t, t ∈ w ↔ t ∈ s.toReissue) :
    (issueMany k s).1 = (w ++ List.range' s.nextNew k).take k := by
  induction k generalizing s l w with
  | zero => simp [issueMany]
  | succ k ih =>
    have hinv := inv_issue h
    cases w with
    | nil =>
      have he : s.toReissue = [] := by
        cases hr : s.toReissue with
        | nil => rfl
        | cons a as => have := (hmem a).2 (by rw [hr]; simp); simp at this
      have hi : s.issue = (s.nextNew, { s with nextNew := s.nextNew + 1
                                               outstanding := setAdd s.outstanding s.nextNew
                                               issued := s.issued + 1 }) := by
        simp [Simple.issue, he]
      simp only [issueMany]
      rw [ih hinv (w := []) (by simp) (by intro t; simp [hi, he])]
      simp [hi, List.range'_succ]
    | cons a w =>
      have ha : a ∈ s.toReissue := (hmem a).1 (by simp)
      have hmin : s.toReissue.min? = some a := by
        rw [List.min?_eq_some_iff]
        refine ⟨ha, ?_⟩
        intro b hb
        have := (hmem b).2 hb
        rcases List.mem_cons.1 this with rfl | hb'
        · exact Nat.le_refl _
        · exact Nat.le_of_lt ((List.pairwise_cons.1 hw).1 b hb')
      have hi : s.issue = (a, { s with toReissue := setDiscard s.toReissue a
                                       outstanding := setAdd s.outstanding a
                                       issued := s.issued + 1 }) := by
        simp [Simple.issue, hmin]
      simp only [issueMany]
      rw [ih hinv (w := w) (List.pairwise_cons.1 hw).2]
      · simp only [hi, List.cons_append, List.take_succ_cons, List.cons.injEq, true_and]
        rw [List.take_append, List.take_append]
        congr 1
        rw [List.range'_concat]
        rw [List.take_append_of_le_length (by simp)]
      · intro t
        simp only [hi, setDiscard]
        rw [h.nodupR.mem_erase_iff, ← hmem]
        constructor
        · intro ht
          refine ⟨?_, by simp [ht]⟩
          have := (List.pairwise_cons.1 hw).1 t ht; omega
        · rintro ⟨hne, ht⟩
          rcases List.mem_cons.1 ht with rfl | ht
          · exact absurd rfl hne
          · exact ht

end Gomill.Sched
