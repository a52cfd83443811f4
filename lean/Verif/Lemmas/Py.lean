import Verif.Model.Py
namespace Gomill.Py

deriving instance DecidableEq for Except

variable {α : Type _} [DecidableEq α]

@[simp] theorem mem_setAdd {s : List α} {x y : α} : y ∈ setAdd s x ↔ y = x ∨ y ∈ s := by
  unfold setAdd; split
  · constructor
    · exact Or.inr
    · rintro (rfl | h) <;> assumption
  · simp

theorem nodup_setAdd {s : List α} {x : α} (h : s.Nodup) : (setAdd s x).Nodup := by
  unfold setAdd; split
  · exact h
  · exact List.nodup_cons.2 ⟨by assumption, h⟩

@[simp] theorem mem_setUpdate {s xs : List α} {y : α} : y ∈ setUpdate s xs ↔ y ∈ s ∨ y ∈ xs := by
  unfold setUpdate
  induction xs generalizing s with
  | nil => simp
  | cons x xs ih => simp only [List.foldl_cons, ih, mem_setAdd, List.mem_cons]; grind

theorem nodup_setUpdate {s xs : List α} (h : s.Nodup) : (setUpdate s xs).Nodup := by
  unfold setUpdate
  induction xs generalizing s with
  | nil => simpa
  | cons x xs ih => exact ih (nodup_setAdd h)

theorem length_setUpdate_disjoint {s xs : List α} (hx : xs.Nodup) (hd : ∀ y ∈ xs, y ∉ s) :
    (setUpdate s xs).length = s.length + xs.length := by
  unfold setUpdate
  induction xs generalizing s with
  | nil => simp
  | cons x xs ih =>
    have hx' := List.nodup_cons.1 hx
    have hxs : x ∉ s := hd x (by simp)
    simp only [List.foldl_cons, List.length_cons]
    rw [ih hx'.2]
    · simp [setAdd, hxs]; omega
    · intro y hy
      simp only [mem_setAdd, not_or]
      refine ⟨?_, hd y (by simp [hy])⟩
      rintro rfl; exact hx'.1 hy

theorem length_le_of_nodup_subset {l m : List α} (hn : l.Nodup) (h : ∀ x ∈ l, x ∈ m) :
    l.length ≤ m.length := by
  induction l generalizing m with
  | nil => simp
  | cons a l ih =>
    have hn' := List.nodup_cons.1 hn
    have ha : a ∈ m := h a (by simp)
    have := ih (m := m.erase a) hn'.2 (by
      intro x hx
      have hne : x ≠ a := by rintro rfl; exact hn'.1 hx
      exact (List.mem_erase_of_ne hne).2 (h x (by simp [hx])))
    rw [List.length_erase_of_mem ha] at this
    have := List.length_pos_of_mem ha
    simp; omega

theorem nodup_setDiscard {s : List α} (h : s.Nodup) (x : α) : (setDiscard s x).Nodup := h.erase x

theorem mem_setDiscard {s : List α} (h : s.Nodup) {x y : α} : y ∈ setDiscard s x ↔ y ≠ x ∧ y ∈ s :=
  h.mem_erase_iff

end Gomill.Py
