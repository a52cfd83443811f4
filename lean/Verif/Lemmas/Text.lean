import Verif.Model.Text
import Verif.Lemmas.Py
/-
Lemmas about the Python string operations.
-/
namespace Gomill.Py

theorem strip_of_ends {s : Str} (h1 : ∀ c, s.head? = some c → isSpace c = false)
    (h2 : ∀ c, s.getLast? = some c → isSpace c = false) : strip s = s := by
  have hl : lstrip s = s := by
    unfold lstrip
    cases s with
    | nil => rfl
    | cons a r => rw [List.dropWhile_cons_of_neg]; simp [h1 a rfl]
  unfold strip rstrip
  rw [hl]
  cases hr : s.reverse with
  | nil => simpa using hr.symm
  | cons a r =>
    have : s.getLast? = some a := by
      rw [← List.head?_reverse, hr]; rfl
    rw [List.dropWhile_cons_of_neg (by simp [h2 a this]), ← hr, List.reverse_reverse]

theorem lstrip_of_noSpace {s : Str} (h : ∀ c ∈ s, isSpace c = false) : lstrip s = s := by
  unfold lstrip
  cases s with
  | nil => rfl
  | cons a r => rw [List.dropWhile_cons_of_neg]; simp [h a (by simp)]

theorem strip_of_noSpace {s : Str} (h : ∀ c ∈ s, isSpace c = false) : strip s = s :=
  strip_of_ends (fun c hc => h c (List.mem_of_head? hc)) (fun c hc => h c (List.mem_of_getLast? hc))

theorem isSpace_of_isDigit {c : Char} (h : c.isDigit = true) : isSpace c = false := by
  simp only [Char.isDigit, Bool.and_eq_true, decide_eq_true_eq, ge_iff_le] at h
  have h1 : 48 ≤ c.toNat := h.1
  have key : ∀ d : Char, d.toNat < 48 → c ≠ d := by rintro d hd rfl; omega
  simp only [isSpace, Bool.or_eq_false_iff, decide_eq_false_iff_not]
  refine ⟨⟨⟨⟨⟨key _ ?_, key _ ?_⟩, key _ ?_⟩, key _ ?_⟩, ?_⟩, ?_⟩ <;> first | decide | omega

theorem ne_of_isDigit {c d : Char} (h : c.isDigit = true) (hd : d.isDigit = false) : c ≠ d := by
  rintro rfl; simp [h] at hd

theorem toDigits_isDigit {n : Nat} {c : Char} (h : c ∈ Nat.toDigits 10 n) : c.isDigit = true :=
  Nat.isDigit_of_mem_toDigits (by decide) (by decide) h

theorem parseDigits_toDigits (n : Nat) : parseDigits (Nat.toDigits 10 n) = .ok n := by
  unfold parseDigits
  rw [if_pos ⟨Nat.toDigits_ne_nil, List.all_eq_true.2 fun c hc => toDigits_isDigit hc⟩,
    Nat.ofDigitChars_ten_toDigits]

theorem parseInt_of_digits {s : Str} (h : ∀ c ∈ s, c.isDigit = true) :
    parseInt s = parseInt.signed id (parseDigits s) := by
  unfold parseInt
  rw [strip_of_noSpace (fun c hc => isSpace_of_isDigit (h c hc))]
  split
  · have := h '-' (by simp); simp [Char.isDigit] at this
  · have := h '+' (by simp); simp [Char.isDigit] at this
  · rfl

/-- `int(str(n)) == n`. -/
theorem parseInt_strInt (n : Int) : parseInt (strInt n) = .ok n := by
  unfold strInt
  split
  · rename_i hn
    unfold parseInt
    rw [strip_of_noSpace]
    · simp only
      rw [lstrip_of_noSpace (fun c hc => isSpace_of_isDigit (toDigits_isDigit hc))]
      simp only [parseDigits_toDigits, parseInt.signed, id, Int.ofNat_eq_natCast]
      congr 1; omega
    · intro c hc
      rcases List.mem_cons.1 hc with rfl | hc
      · decide
      · exact isSpace_of_isDigit (toDigits_isDigit hc)
  · rename_i hn
    rw [parseInt_of_digits (fun c hc => toDigits_isDigit hc), parseDigits_toDigits]
    simp only [parseInt.signed, id, Int.ofNat_eq_natCast]
    congr 1; omega

theorem parseInt_error {s : Str} {e : Exc} (h : parseInt s = .error e) : e = .valueError := by
  unfold parseInt parseDigits at h
  split at h <;> split at h <;> simp [parseInt.signed] at h <;> exact h.symm

theorem strInt_inj {m n : Int} (h : strInt m = strInt n) : m = n := by
  have h1 := parseInt_strInt m
  rw [h, parseInt_strInt] at h1
  exact (Except.ok.inj h1).symm

theorem strInt_ne_nil (n : Int) : strInt n ≠ [] := by
  unfold strInt; split <;> simp [Nat.toDigits_ne_nil]

theorem strInt_natCast (n : Nat) : strInt (n : Int) = Nat.toDigits 10 n := by
  unfold strInt; rw [if_neg (by omega)]; simp

theorem splitOn_ne_nil (c : Char) (s : Str) : splitOn c s ≠ [] := by
  induction s with
  | nil => simp [splitOn]
  | cons x xs ih =>
    unfold splitOn
    split
    · simp
    · split <;> simp

theorem splitOn_of_not_mem {c : Char} {s : Str} (h : c ∉ s) : splitOn c s = [s] := by
  induction s with
  | nil => rfl
  | cons x xs ih =>
    rw [List.mem_cons, not_or] at h
    unfold splitOn
    rw [if_neg (Ne.symm h.1), ih h.2]

theorem splitOn_append {c : Char} {s t : Str} (h : c ∉ s) : splitOn c (s ++ c :: t) = s :: splitOn c t := by
  induction s with
  | nil => simp [splitOn]
  | cons x xs ih =>
    rw [List.mem_cons, not_or] at h
    rw [List.cons_append, splitOn, if_neg (Ne.symm h.1), ih h.2]

/-- `c.join(l).split(c) == l` for a nonempty list of strings without `c`. -/
theorem splitOn_join {c : Char} {l : List Str} (hl : l ≠ []) (h : ∀ x ∈ l, c ∉ x) : splitOn c (join [c] l) = l := by
  induction l with
  | nil => exact absurd rfl hl
  | cons x r ih =>
    cases r with
    | nil => exact splitOn_of_not_mem (h x (by simp))
    | cons y r =>
      rw [join, List.append_assoc, List.singleton_append, splitOn_append (h x (by simp)),
        ih (by simp) (fun z hz => h z (List.mem_cons_of_mem _ hz))]

/-- `c.join(s.split(c)) == s`. -/
theorem join_splitOn (c : Char) (s : Str) : join [c] (splitOn c s) = s := by
  induction s with
  | nil => rfl
  | cons x xs ih =>
    unfold splitOn
    split
    · rename_i h
      subst h
      rcases hs : splitOn x xs with _ | ⟨p, ps⟩
      · exact absurd hs (splitOn_ne_nil _ _)
      · rw [join, ← hs, ih]; rfl
    · rcases hs : splitOn c xs with _ | ⟨p, ps⟩
      · exact absurd hs (splitOn_ne_nil _ _)
      · rw [hs] at ih
        simp only
        cases ps with
        | nil => simp [join] at ih ⊢; exact ih
        | cons q qs => simp only [join, List.cons_append, List.append_assoc] at ih ⊢; rw [ih]

theorem mem_join {c : Char} {sep : Str} {l : List Str} (h : c ∈ join sep l) : c ∈ sep ∨ ∃ x ∈ l, c ∈ x := by
  induction l with
  | nil => simp [join] at h
  | cons x r ih =>
    cases r with
    | nil => exact Or.inr ⟨x, by simp, by simpa [join] using h⟩
    | cons y r =>
      rw [join, List.append_assoc, List.mem_append, List.mem_append] at h
      rcases h with h | h | h
      · exact Or.inr ⟨x, by simp, h⟩
      · exact Or.inl h
      · rcases ih h with h | ⟨z, hz, h⟩
        · exact Or.inl h
        · exact Or.inr ⟨z, List.mem_cons_of_mem _ hz, h⟩

/-- Position arithmetic for a joined row of two-character cells. -/
theorem join_cells {sep : Char} {cells : List Str} (h : ∀ x ∈ cells, x.length = 2) {i : Nat} (hi : i < cells.length) :
    (join [sep] cells)[3 * i + 1]? = (cells[i])[1]? := by
  induction cells generalizing i with
  | nil => simp at hi
  | cons x r ih =>
    have hx := h x (by simp)
    cases r with
    | nil =>
      have : i = 0 := by simpa using hi
      subst this; simp [join]
    | cons y r =>
      rw [join, List.append_assoc]
      cases i with
      | zero =>
        rw [List.getElem?_append_left (by omega)]; rfl
      | succ j =>
        have hj : j < (y :: r).length := by simpa using hi
        rw [List.getElem?_append_right (by omega), List.singleton_append, hx,
          show 3 * (j + 1) + 1 - 2 = (3 * j + 1) + 1 by omega, List.getElem?_cons_succ,
          ih (fun z hz => h z (List.mem_cons_of_mem _ hz)) hj]
        rfl

theorem mapM_ok {α β} {f : α → Except Exc β} {g : α → β} {l : List α} (h : ∀ x ∈ l, f x = .ok (g x)) :
    l.mapM f = .ok (l.map g) := by
  induction l with
  | nil => rfl
  | cons a r ih =>
    rw [List.mapM_cons, h a (by simp), ih (fun x hx => h x (List.mem_cons_of_mem _ hx))]; rfl

end Gomill.Py
