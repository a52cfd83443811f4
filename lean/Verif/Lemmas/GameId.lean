import Verif.Spec.Tournament
import Verif.Lemmas.Text
/-
Game ids.
-/
namespace Gomill.Tourn
open Py

theorem padNat_digits {w n : Nat} {c : Char} (h : c ∈ padNat w n) : c.isDigit = true := by
  unfold padNat at h
  rcases List.mem_append.1 h with h | h
  · rw [List.eq_of_mem_replicate h]; decide
  · exact toDigits_isDigit h

theorem padNat_ne_nil (w n : Nat) : padNat w n ≠ [] := by
  unfold padNat; simp [Nat.toDigits_ne_nil]

theorem padNat_value (w n : Nat) : Nat.ofDigitChars 10 (padNat w n) 0 = n := by
  unfold padNat
  rw [Nat.ofDigitChars_append, Nat.ofDigitChars_replicate_zero]
  simp

theorem gameIdOf_make (m : Matchup) (n : Nat) : GameIdOf m.id n (m.makeGameId n) :=
  ⟨formatNumber m.numberOfGames n, padNat_ne_nil _ _, fun _ h => padNat_digits h, padNat_value _ _, rfl⟩

theorem underscore_free {s : Str} (h : ∀ c ∈ s, c.isDigit = true) : '_' ∉ s := by
  intro hc; have := h _ hc; simp [Char.isDigit] at this

theorem gameIdOf_inj {m m' : Str} {n n' : Nat} {g : Str} (h : GameIdOf m n g) (h' : GameIdOf m' n' g) :
    m = m' ∧ n = n' := by
  obtain ⟨s, _, hd, rfl, rfl⟩ := h
  obtain ⟨s', _, hd', rfl, he⟩ := h'
  have hr := congrArg List.reverse he
  simp only [List.reverse_append, List.reverse_cons, List.append_assoc, List.singleton_append] at hr
  have h1 := splitOn_append (c := '_') (s := s.reverse) (t := m.reverse) (by simpa using underscore_free hd)
  have h2 := splitOn_append (c := '_') (s := s'.reverse) (t := m'.reverse) (by simpa using underscore_free hd')
  rw [hr, h2] at h1
  have h3 : s = s' := by simpa using (List.cons.inj h1).1.symm
  subst h3
  exact ⟨List.append_cancel_right he, rfl⟩

theorem padNat_length {c : Int} {n : Nat} (h : (n : Int) < c) : (padNat (zeroWidth (some c)) n).length = zeroWidth (some c) := by
  have hc : strInt (c - 1) = Nat.toDigits 10 (c - 1).toNat := by
    rw [← strInt_natCast, Int.toNat_of_nonneg (by omega)]
  unfold padNat zeroWidth
  simp only [List.length_append, List.length_replicate, hc]
  have hle : (Nat.toDigits 10 n).length ≤ (Nat.toDigits 10 (c - 1).toNat).length := by
    rw [Nat.length_toDigits_le_iff (by omega) Nat.length_toDigits_pos]
    refine Nat.lt_of_le_of_lt (m := (c-1).toNat) (by omega) ?_
    exact (Nat.length_toDigits_le_iff (by omega) Nat.length_toDigits_pos).1 (Nat.le_refl _)
  omega

theorem ofDigitChars_lt {s : Str} (h : ∀ c ∈ s, c.isDigit = true) : Nat.ofDigitChars 10 s 0 < 10 ^ s.length := by
  induction s with
  | nil => simp
  | cons c s ih =>
    rw [Nat.ofDigitChars_cons, Nat.ofDigitChars_eq_ofDigitChars_zero]
    have h1 := ih (fun d hd => h d (List.mem_cons_of_mem _ hd))
    have h2 : c.toNat - '0'.toNat ≤ 9 := by
      have := h c (by simp)
      simp only [Char.isDigit, Bool.and_eq_true, decide_eq_true_eq] at this
      have h3 : c.toNat ≤ 57 := this.2
      have h4 : '0'.toNat = 48 := rfl
      omega
    rw [List.length_cons, Nat.pow_succ]
    generalize Nat.ofDigitChars 10 s 0 = v at *
    generalize c.toNat - '0'.toNat = d at *
    generalize 10 ^ s.length = p at *
    have : p * d ≤ p * 9 := Nat.mul_le_mul_left _ h2
    simp; omega

/-- Digit strings of the same length sort in the order of their values. -/
theorem digits_lt : ∀ {s t : Str}, s.length = t.length → (∀ c ∈ s, c.isDigit = true) → (∀ c ∈ t, c.isDigit = true) →
    Nat.ofDigitChars 10 s 0 < Nat.ofDigitChars 10 t 0 → s < t
  | [], [], _, _, _, h => by simp at h
  | [], _ :: _, hl, _, _, _ => by simp at hl
  | _ :: _, [], hl, _, _, _ => by simp at hl
  | c :: s, d :: t, hl, hs, ht, h => by
    rw [List.length_cons, List.length_cons] at hl
    have hl' : s.length = t.length := by omega
    rw [List.cons_lt_cons_iff]
    rw [Nat.ofDigitChars_cons, Nat.ofDigitChars_eq_ofDigitChars_zero, Nat.ofDigitChars_cons,
      Nat.ofDigitChars_eq_ofDigitChars_zero (l := t), ← hl'] at h
    have h1 := ofDigitChars_lt (s := s) (fun x hx => hs x (List.mem_cons_of_mem _ hx))
    have h2 := ofDigitChars_lt (s := t) (fun x hx => ht x (List.mem_cons_of_mem _ hx))
    rw [← hl'] at h2
    have hc := hs c (by simp)
    have hd := ht d (by simp)
    simp only [Char.isDigit, Bool.and_eq_true, decide_eq_true_eq] at hc hd
    have hc1 : 48 ≤ c.toNat := hc.1
    have hd1 : 48 ≤ d.toNat := hd.1
    have h0 : '0'.toNat = 48 := rfl
    rw [h0] at h
    rcases Nat.lt_trichotomy c.toNat d.toNat with hlt | heq | hgt
    · left; exact hlt
    · right
      have : c = d := Char.toNat_inj.1 heq
      subst this
      refine ⟨rfl, digits_lt hl' (fun x hx => hs x (List.mem_cons_of_mem _ hx)) (fun x hx => ht x (List.mem_cons_of_mem _ hx)) ?_⟩
      omega
    · exfalso
      generalize Nat.ofDigitChars 10 s 0 = v at *
      generalize Nat.ofDigitChars 10 t 0 = u at *
      generalize 10 ^ s.length = p at *
      obtain ⟨k, hk⟩ : ∃ k, c.toNat - 48 = (d.toNat - 48) + 1 + k := ⟨c.toNat - d.toNat - 1, by omega⟩
      rw [hk] at h
      simp only [Nat.mul_zero, Nat.zero_add] at h
      rw [Nat.mul_add, Nat.mul_add] at h
      omega

end Gomill.Tourn
