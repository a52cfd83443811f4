import Verif.Spec.GtpGame
import Verif.Props.Score
/-
Lemmas for C59: the decision of _Gtp_backend._score_game_gtp.
-/
namespace Gomill.Gtp
open Py

/-! ### len(set(l)) -/

theorem pySet_grow {α} (same : α → α → Bool) (l : List α) : ∀ s : List α,
    s.length ≤ (l.foldl (fun s x => if s.any (same x) then s else x :: s) s).length := by
  induction l with
  | nil => intro s; exact Nat.le_refl _
  | cons x l ih =>
    intro s
    rw [List.foldl_cons]
    refine Nat.le_trans ?_ (ih _)
    by_cases h : s.any (same x) = true
    · rw [if_pos h]
    · rw [if_neg h]
      exact Nat.le_succ _

theorem pySet_same {α} (same : α → α → Bool) (x : α) (l : List α) (h : ∀ y ∈ l, same y x = true) :
    l.foldl (fun s x => if s.any (same x) then s else x :: s) [x] = [x] := by
  induction l with
  | nil => rfl
  | cons y l ih =>
    simp only [List.foldl_cons, List.any_cons, List.any_nil, Bool.or_false, h y List.mem_cons_self, if_true]
    exact ih (fun z hz => h z (List.mem_cons_of_mem _ hz))

theorem pySetLen_one {α} (same : α → α → Bool) (x : α) (l : List α) : pySetLen same (x :: l) = 1 ↔ ∀ y ∈ l, same y x = true := by
  unfold pySetLen
  simp only [List.foldl_cons, List.any_nil, Bool.false_eq_true, if_false]
  constructor
  · intro h
    induction l with
    | nil => intro y hy; cases hy
    | cons y l ih =>
      simp only [List.foldl_cons, List.any_cons, List.any_nil, Bool.or_false] at h
      cases hs : same y x with
      | false =>
        exfalso
        rw [hs] at h
        have := pySet_grow same l [y, x]
        simp only [Bool.false_eq_true, if_false] at h
        rw [h] at this
        simp at this
      | true =>
        rw [hs] at h
        intro z hz
        rcases List.mem_cons.1 hz with rfl | hz
        · exact hs
        · exact ih h z hz
  · intro h
    rw [pySet_same same x l h]
    rfl

theorem pySetLen_pos {α} (same : α → α → Bool) (x : α) (l : List α) : 1 ≤ pySetLen same (x :: l) := by
  unfold pySetLen
  simp only [List.foldl_cons, List.any_nil, Bool.false_eq_true, if_false]
  exact pySet_grow same l [x]

/-! ### Reading a response -/

theorem toUpper_zero {c : Char} (h : c.toUpper = '0') : c = '0' := by
  unfold Char.toUpper at h
  split at h
  · rename_i hl
    exfalso
    have h1 := congrArg (fun d : Char => d.val.toNat) h
    simp only [UInt32.toNat_add] at h1
    have h2 : 97 ≤ c.val.toNat := hl.1
    have h3 : c.val.toNat ≤ 122 := hl.2
    have h4 : ('A'.val - 'a'.val).toNat = 4294967264 := by decide
    have h5 : '0'.val.toNat = 48 := rfl
    rw [h4, h5] at h1
    omega
  · exact h

theorem upper_zero {s : Str} (h : upper s = "0".toList) : s = "0".toList := by
  unfold upper at h
  match s with
  | [] => cases h
  | [c] =>
    have : c.toUpper = '0' := by simpa using h
    rw [toUpper_zero this]
    rfl
  | _ :: _ :: _ => simp at h

theorem prefix_two {a b : Char} {s : Str} : [a, b].isPrefixOf s = true ↔ ∃ t, s = a :: b :: t := by
  rw [List.isPrefixOf_iff_prefix]
  constructor
  · rintro ⟨t, rfl⟩
    exact ⟨t, rfl⟩
  · rintro ⟨t, rfl⟩
    exact ⟨t, rfl⟩

theorem margin_read (float : Str → Option Num) (t : Str) :
    readMargin float t = marginSaid float t := by
  unfold readMargin marginSaid
  cases float t with
  | none => rfl
  | some m =>
    cases m with
    | fin q =>
      simp only [numNonPos, decide_eq_true_eq]
      by_cases h : q ≤ 0
      · rw [if_pos h, if_neg (not_lt.2 h)]
      · rw [if_neg h, if_pos (not_le.1 h)]
    | inf => rfl
    | negInf => rfl
    | nan => rfl

/-- What is read from a response is what it says. -/
theorem readScore_iff (float : Str → Option Num) (r : Str) (w : Option Colour) (m : Option Num) :
    readScore float r = some (w, m) ↔ Says float r w m := by
  unfold readScore
  simp only
  have hB : ("B+".toList.isPrefixOf (upper r) = true) ↔ ∃ t, upper r = 'B' :: '+' :: t := prefix_two
  have hW : ("W+".toList.isPrefixOf (upper r) = true) ↔ ∃ t, upper r = 'W' :: '+' :: t := prefix_two
  by_cases h0 : upper r = "0".toList
  · rw [if_pos h0]
    cases w with
    | none =>
      simp only [Option.some.injEq, Prod.mk.injEq, true_and, Says]
      exact ⟨fun h => ⟨upper_zero h0, h.symm⟩, fun h => h.2.symm⟩
    | some c =>
      simp only [Option.some.injEq, Prod.mk.injEq, reduceCtorEq, false_and, false_iff, Says]
      rintro ⟨t, ht, _⟩
      rw [h0] at ht
      cases c <;> simp [Colour.upper] at ht
  · rw [if_neg h0]
    have hn0 : r ≠ "0".toList := by
      rintro rfl
      exact h0 (by decide)
    by_cases hb : "B+".toList.isPrefixOf (upper r) = true
    · rw [if_pos hb]
      obtain ⟨t, ht⟩ := hB.1 hb
      rw [ht]
      simp only [List.drop_succ_cons, List.drop_zero]
      rw [margin_read]
      constructor
      · intro h
        cases h
        exact ⟨t, ht, rfl⟩
      · intro h
        cases w with
        | none => exact absurd h.1 hn0
        | some c =>
          obtain ⟨t', ht', hm⟩ := h
          rw [ht] at ht'
          cases c with
          | b => cases ht'; rw [hm]
          | w => simp [Colour.upper] at ht'
    · rw [if_neg hb]
      by_cases hw : "W+".toList.isPrefixOf (upper r) = true
      · rw [if_pos hw]
        obtain ⟨t, ht⟩ := hW.1 hw
        rw [ht]
        simp only [List.drop_succ_cons, List.drop_zero]
        rw [margin_read]
        constructor
        · intro h
          cases h
          exact ⟨t, ht, rfl⟩
        · intro h
          cases w with
          | none => exact absurd h.1 hn0
          | some c =>
            obtain ⟨t', ht', hm⟩ := h
            rw [ht] at ht'
            cases c with
            | w => cases ht'; rw [hm]
            | b => simp [Colour.upper] at ht'
      · rw [if_neg hw]
        simp only [reduceCtorEq, false_iff]
        intro h
        cases w with
        | none => exact hn0 h.1
        | some c =>
          obtain ⟨t', ht', hm⟩ := h
          cases c with
          | b => exact hb (hB.2 ⟨t', ht'⟩)
          | w => exact hw (hW.2 ⟨t', ht'⟩)

/-! ### The decision -/

/-- The decision, in terms of the votes. -/
theorem consensus_spec (votes : List (Option Colour × Option Num)) :
    (∀ w, (votes ≠ [] ∧ ∀ v ∈ votes, v.1 = w) → (consensus votes).1 = w ∧ (consensus votes).2.2 = false ∧
      ∀ m, (consensus votes).2.1 = some m ↔ (votes ≠ [] ∧ ∀ v ∈ votes, v.2 = some m) ∧ (m = .nan → votes.length = 1)) ∧
    (votes = [] → consensus votes = (none, none, false)) ∧
    ((∃ v ∈ votes, ∃ v' ∈ votes, v.1 ≠ v'.1) → consensus votes = (none, none, true)) := by
  refine ⟨?_, ?_, ?_⟩
  · rintro w ⟨hne, hall⟩
    match votes, hne with
    | v :: vs, _ =>
      have h1 : pySetLen (fun a b : Option Colour => decide (a = b)) ((v :: vs).map Prod.fst) = 1 := by
        rw [List.map_cons, pySetLen_one]
        intro y hy
        obtain ⟨v', hv', rfl⟩ := List.mem_map.1 hy
        rw [decide_eq_true_eq, hall v' (List.mem_cons_of_mem _ hv'), hall v List.mem_cons_self]
      unfold consensus
      simp only [h1, if_true]
      refine ⟨by simp [hall v List.mem_cons_self], trivial, ?_⟩
      intro m
      by_cases h2 : pySetLen sameMargin ((v :: vs).map Prod.snd) = 1
      · rw [if_pos h2]
        rw [List.map_cons, pySetLen_one] at h2
        simp only [List.map_cons, List.headD_cons]
        constructor
        · intro hm
          refine ⟨⟨List.cons_ne_nil _ _, ?_⟩, ?_⟩
          · intro x hx
            rcases List.mem_cons.1 hx with rfl | hx
            · exact hm
            · have := h2 x.2 (List.mem_map.2 ⟨x, hx, rfl⟩)
              simp only [sameMargin, Bool.and_eq_true, decide_eq_true_eq] at this
              rw [this.1, hm]
          · rintro rfl
            cases vs with
            | nil => rfl
            | cons v' vs =>
              exfalso
              have := h2 v'.2 (by simp)
              simp only [sameMargin, Bool.and_eq_true, decide_eq_true_eq] at this
              exact this.2 (this.1.trans hm)
        · intro h
          exact h.1.2 v List.mem_cons_self
      · rw [if_neg h2]
        simp only [reduceCtorEq, false_iff]
        rintro ⟨⟨_, ha⟩, hnan⟩
        apply h2
        rw [List.map_cons, pySetLen_one]
        intro y hy
        obtain ⟨v', hv', rfl⟩ := List.mem_map.1 hy
        simp only [sameMargin, Bool.and_eq_true, decide_eq_true_eq]
        refine ⟨by rw [ha v' (List.mem_cons_of_mem _ hv'), ha v List.mem_cons_self], ?_⟩
        rw [ha v' (List.mem_cons_of_mem _ hv')]
        intro hm
        cases hm
        have := hnan rfl
        cases vs with
        | nil => cases hv'
        | cons _ _ => simp at this
  · rintro rfl
    rfl
  · rintro ⟨v, hv, v', hv', hne⟩
    match votes, hv, hv' with
    | x :: xs, hv, hv' =>
      have h1 : pySetLen (fun a b : Option Colour => decide (a = b)) ((x :: xs).map Prod.fst) ≠ 1 := by
        intro h
        rw [List.map_cons, pySetLen_one] at h
        have hx : ∀ z ∈ x :: xs, z.1 = x.1 := by
          intro z hz
          rcases List.mem_cons.1 hz with rfl | hz
          · rfl
          · exact of_decide_eq_true (h z.1 (List.mem_map.2 ⟨z, hz, rfl⟩))
        exact hne ((hx v hv).trans (hx v' hv').symm)
      have h2 := pySetLen_pos (fun a b : Option Colour => decide (a = b)) x.1 (xs.map Prod.fst)
      rw [← List.map_cons (f := Prod.fst)] at h2
      unfold consensus
      simp only [h1, if_false]
      rw [decide_eq_true (by omega)]

end Gomill.Gtp
