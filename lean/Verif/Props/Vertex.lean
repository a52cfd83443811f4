import Verif.Model.Vertex
import Verif.Model.Handicap
import Verif.Lemmas.Text
import Verif.Lemmas.BoardBasic
/-
C13-C15: vertices and handicap layouts.
-/
namespace Gomill
open Py Go

theorem toLower_of_isDigit {c : Char} (h : c.isDigit = true) : c.toLower = c := by
  simp only [Char.isDigit, Bool.and_eq_true, decide_eq_true_eq] at h
  have h2 : c.val ≤ 57 := h.2
  unfold Char.toLower
  rw [dif_neg]
  rintro ⟨h3, _⟩
  have h3 : (65 : UInt32) ≤ c.val := h3
  have : (65 : UInt32) ≤ 57 := UInt32.le_trans h3 h2
  exact absurd this (by decide)

theorem lower_strInt {n : Int} (h : 0 ≤ n) : lower (strInt n) = strInt n := by
  unfold strInt lower
  rw [if_neg (by omega)]
  conv => rhs; rw [← List.map_id (Nat.toDigits 10 n.natAbs)]
  exact List.map_congr_left fun c hc => toLower_of_isDigit (toDigits_isDigit hc)

/-- The numeric column of a lower-case letter (common.py:79-83). -/
def colOfLetter (c : Char) : Int :=
  if c > 'i' then (c.toNat : Int) - 'b'.toNat else (c.toNat : Int) - 'a'.toNat

theorem columnLetters_spec : ∀ k : Fin 25, ∃ c, columnLetters[k.val]? = some c ∧ ('a' ≤ c.toLower ∧ c.toLower ≤ 'z') ∧
    c.toLower ≠ 'i' ∧ colOfLetter c.toLower = k.val := by
  intro k
  refine ⟨columnLetters[k.val]'(Nat.lt_of_lt_of_eq k.2 (by decide)), List.getElem?_eq_getElem _, ?_⟩
  revert k; decide

theorem colOfLetter_spec {c : Char} (h1 : 'a' ≤ c) (h2 : c ≤ 'z') (h3 : c ≠ 'i') :
    0 ≤ colOfLetter c ∧ colOfLetter c < 25 ∧ ∃ l, columnLetters[(colOfLetter c).toNat]? = some l ∧ l.toLower = c := by
  have e : c = Char.ofNat c.toNat := (Char.ofNat_toNat c).symm
  have h1 : 97 ≤ c.toNat := h1
  have h2 : c.toNat ≤ 122 := h2
  have key : ∀ k : Fin 26, Char.ofNat (97 + k.val) ≠ 'i' →
      0 ≤ colOfLetter (Char.ofNat (97 + k.val)) ∧ colOfLetter (Char.ofNat (97 + k.val)) < 25 ∧
      ((columnLetters[(colOfLetter (Char.ofNat (97 + k.val))).toNat]?).any
        (fun l => decide (l.toLower = Char.ofNat (97 + k.val)))) = true := by decide
  obtain ⟨k, hk⟩ : ∃ k : Fin 26, c.toNat = 97 + k.val := ⟨⟨c.toNat - 97, by omega⟩, by simp only; omega⟩
  rw [hk] at e
  have := key k (e ▸ h3)
  rw [← e] at this
  obtain ⟨a, b, d⟩ := this
  refine ⟨a, b, ?_⟩
  rw [Option.any_eq_true] at d
  obtain ⟨l, hl, hd⟩ := d
  exact ⟨l, hl, by simpa using hd⟩

theorem vertexColRow_cons (c : Char) (r : Str) : vertexColRow (c :: r) =
    if ¬ ('a' ≤ c ∧ c ≤ 'z') ∨ c = 'i' then .error .valueError
    else match parseInt r with
      | .error e => .error e
      | .ok k => if k - 1 < 0 then .error .valueError else .ok (colOfLetter c, k - 1) := by
  unfold vertexColRow
  have : getItem (c :: r) 0 = .ok c := by simp [getItem, normIndex]
  simp only [this, List.drop_one, List.tail_cons]
  by_cases hc : ¬ ('a' ≤ c ∧ c ≤ 'z') ∨ c = 'i'
  · rw [if_pos hc]
    simp only [bind, Except.bind, hc, if_true]; rfl
  · rw [if_neg hc]
    simp only [bind, Except.bind, hc, if_false, pure, Except.pure]
    rcases parseInt r with e | k
    · rfl
    · simp only
      by_cases hk : k - 1 < 0
      · rw [if_pos hk, if_pos hk]; rfl
      · rw [if_neg hk, if_neg hk]; rfl

theorem columnLetter_get {col : Int} (h0 : 0 ≤ col) (h1 : col < 25) : ∃ c, getItem columnLetters col = .ok c ∧
    columnLetters[col.toNat]? = some c ∧
    ('a' ≤ c.toLower ∧ c.toLower ≤ 'z') ∧ c.toLower ≠ 'i' ∧ colOfLetter c.toLower = col := by
  obtain ⟨c, hc, h⟩ := columnLetters_spec ⟨col.toNat, by omega⟩
  refine ⟨c, ?_, hc, h.1, h.2.1, by rw [h.2.2]; simp; omega⟩
  have hl : (columnLetters.length : Int) = 25 := by decide
  rw [getItem_of_lt h0 (by omega)]
  rw [List.getElem?_eq_some_iff] at hc
  obtain ⟨_, hc⟩ := hc
  exact congrArg Except.ok hc

/-! ## C13 -/

/-- C13: a point that can be formatted is formatted as a letter (A..Z without I) and the row number counted from one,
and is read back from the result, in any mixture of cases. -/
theorem C13_vertex_round_trip (n : Nat) (hn : n ≤ 25) (p : Pt) (hp : OnBoard n p) :
    ∃ s, formatVertex (some p) = .ok s ∧
      (∃ c, columnLetters[p.2.toNat]? = some c ∧ s = c :: strInt (p.1 + 1)) ∧
      ∀ t, lower t = lower s → moveFromVertex t n = .ok (some p) := by
  obtain ⟨row, col⟩ := p
  obtain ⟨h1, h2, h3, h4⟩ := hp
  simp only at h1 h2 h3 h4
  obtain ⟨c, hc, hc', hc1, hc2, hc3⟩ := columnLetter_get h3 (by omega : col < 25)
  refine ⟨c :: strInt (row + 1), ?_, ⟨c, hc', rfl⟩, ?_⟩
  · unfold formatVertex
    simp only
    rw [if_neg (by omega)]
    simp [hc, bind, Except.bind, pure, Except.pure]
  · intro t ht
    have hlow : lower (c :: strInt (row + 1)) = c.toLower :: strInt (row + 1) := by
      rw [show lower (c :: strInt (row + 1)) = c.toLower :: lower (strInt (row + 1)) from rfl, lower_strInt (by omega)]
    rw [hlow] at ht
    unfold moveFromVertex
    rw [if_neg (by omega)]
    simp only [ht]
    have hd : ∃ d ds, strInt (row + 1) = d :: ds ∧ d.isDigit = true := by
      have hs : strInt (row + 1) = Nat.toDigits 10 (row + 1).natAbs := by unfold strInt; rw [if_neg (by omega)]
      rw [hs]
      rcases hx : Nat.toDigits 10 (row + 1).natAbs with _ | ⟨d, ds⟩
      · exact absurd hx Nat.toDigits_ne_nil
      · exact ⟨d, ds, rfl, toDigits_isDigit (by rw [hx]; simp)⟩
    have hne : c.toLower :: strInt (row + 1) ≠ "pass".toList := by
      obtain ⟨d, ds, hs, hd⟩ := hd
      rw [hs]
      intro he
      have : d = 'a' := by
        have := congrArg (fun l => l[1]?) he
        simpa using this
      rw [this] at hd; exact absurd hd (by decide)
    rw [if_neg hne, vertexColRow_cons, if_neg (by simp only [not_or, not_not]; exact ⟨hc1, hc2⟩), parseInt_strInt]
    simp only
    rw [if_neg (by omega)]
    simp only [hc3]
    rw [if_neg (by omega), show row + 1 - 1 = row by omega]

/-- C13: the same for pass. -/
theorem C13_pass_round_trip (n : Nat) (h0 : 0 < n) (hn : n ≤ 25) (t : Str) (ht : lower t = "pass".toList) :
    formatVertex none = .ok "pass".toList ∧ moveFromVertex t n = .ok none := by
  refine ⟨rfl, ?_⟩
  unfold moveFromVertex
  rw [if_neg (by omega)]
  simp [ht]

/-- C13: what `format_vertex_list` writes, split at the commas, is read back as the same moves; there is nothing else in
it. -/
theorem C13_vertex_list (n : Nat) (hn : n ≤ 25) (h0 : 0 < n) (moves : List (Option Pt)) (hm : ∀ p, some p ∈ moves → OnBoard n p) :
    ∃ vs s, formatVertexList moves = .ok s ∧ moves.map formatVertex = vs.map .ok ∧
      s = List.flatten (vs.intersperse [',']) ∧ (moves ≠ [] → splitOn ',' s = vs) ∧
      vs.map (fun v => moveFromVertex v n) = moves.map .ok := by
  have key : ∀ m ∈ moves, ∃ v, formatVertex m = .ok v ∧ ',' ∉ v ∧ moveFromVertex v n = .ok m := by
    intro m hmem
    cases m with
    | none => exact ⟨"pass".toList, rfl, by decide, (C13_pass_round_trip n h0 hn _ (by decide)).2⟩
    | some p =>
      obtain ⟨s, h1, ⟨c, h2, h3⟩, h4⟩ := C13_vertex_round_trip n hn p (hm p hmem)
      refine ⟨s, h1, ?_, h4 s rfl⟩
      subst h3
      intro hc
      rcases List.mem_cons.1 hc with rfl | hc
      · have := List.mem_of_getElem? h2
        revert this; decide
      · unfold strInt at hc
        have hp := (hm p hmem).1
        rw [if_neg (by omega)] at hc
        have := toDigits_isDigit hc
        revert this; decide
  have hj : ∀ vs : List Str, join [','] vs = List.flatten (vs.intersperse [',']) := by
    intro vs
    induction vs with
    | nil => rfl
    | cons x r ih =>
      cases r with
      | nil => simp [join]
      | cons y r => rw [join, ih]; simp
  have : ∃ vs, moves.mapM formatVertex = .ok vs ∧ moves.map formatVertex = vs.map .ok ∧ (∀ v ∈ vs, ',' ∉ v) ∧
      vs.map (fun v => moveFromVertex v n) = moves.map .ok ∧ vs.length = moves.length := by
    clear hm
    induction moves with
    | nil => exact ⟨[], rfl, rfl, by simp, rfl, rfl⟩
    | cons m ms ih =>
      obtain ⟨vs, h1, h2, h3, h4, h5⟩ := ih (fun m' h => key m' (List.mem_cons_of_mem _ h))
      obtain ⟨v, g1, g2, g3⟩ := key m (by simp)
      refine ⟨v :: vs, ?_, ?_, ?_, ?_, ?_⟩
      · simp [List.mapM_cons, g1, h1, bind, Except.bind, pure, Except.pure]
      · simp only [List.map_cons, g1, h2]
      · intro w hw
        rcases List.mem_cons.1 hw with rfl | hw
        · exact g2
        · exact h3 w hw
      · simp only [List.map_cons, g3, h4]
      · simp [h5]
  obtain ⟨vs, h1, h2, h3, h4, h5⟩ := this
  refine ⟨vs, join [','] vs, ?_, h2, hj vs, ?_, h4⟩
  · simp [formatVertexList, h1, bind, Except.bind, pure, Except.pure]
  · intro hne
    refine splitOn_join ?_ h3
    intro he
    rw [he] at h5
    exact hne (List.eq_nil_of_length_eq_zero (by simpa using h5.symm))

/-- C13: every size from 1 to 25 has points, and "PASS" is read as pass. -/
theorem C13_witness : OnBoard 19 (18, 8) ∧ formatVertex (some (18, 8)) = .ok "J19".toList ∧
    moveFromVertex "j19".toList 19 = .ok (some (18, 8)) ∧ lower "PaSS".toList = "pass".toList := by
  refine ⟨by unfold OnBoard; decide, by rfl, by rfl, by decide⟩

/-! ## C14 -/

/-- C14: what `move_from_vertex` accepts.  (`int` is `parseInt`: surrounding whitespace and a sign are allowed.) -/
theorem C14_characterisation (s : Str) (n : Int) (p : Pt) :
    moveFromVertex s n = .ok (some p) ↔
      (0 < n ∧ n ≤ 25) ∧ (0 ≤ p.1 ∧ p.1 < n ∧ 0 ≤ p.2 ∧ p.2 < n) ∧
      ∃ c l r, s = c :: r ∧ columnLetters[p.2.toNat]? = some l ∧ c.toLower = l.toLower ∧
        parseInt (lower r) = .ok (p.1 + 1) := by
  obtain ⟨row, col⟩ := p
  unfold moveFromVertex
  constructor
  · intro h
    split at h
    · simp at h
    rename_i hn
    simp only [not_not] at hn
    simp only at h
    split at h
    · simp at h
    rcases s with _ | ⟨c, r⟩
    · simp [lower, vertexColRow, getItem, normIndex, bind, Except.bind] at h
    rw [show lower (c :: r) = c.toLower :: lower r from rfl, vertexColRow_cons] at h
    split at h
    · simp at h
    · simp at h
    · simp at h
    rename_i col' row' hv
    split at hv
    · simp at hv
    rename_i hc
    simp only [not_or, not_not] at hc
    split at hv
    · simp at hv
    rename_i k hk
    split at hv
    · simp at hv
    rename_i hk0
    simp only [Except.ok.injEq, Prod.mk.injEq] at hv
    split at h
    · simp at h
    rename_i hb
    simp only [Except.ok.injEq, Option.some.injEq, Prod.mk.injEq] at h
    obtain ⟨rfl, rfl⟩ := hv
    obtain ⟨rfl, rfl⟩ := h
    obtain ⟨a1, a2, l, a3, a4⟩ := colOfLetter_spec hc.1.1 hc.1.2 hc.2
    refine ⟨hn, ⟨by simp only; omega, by simp only; omega, a1, by simp only; omega⟩, c, l, r, rfl, a3, a4.symm, ?_⟩
    rw [hk]; congr 1; simp only; omega
  · rintro ⟨hn, ⟨h1, h2, h3, h4⟩, c, l, r, rfl, hl, hcl, hr⟩
    simp only at h1 h2 h3 h4 hl hr
    rw [if_neg (by simpa using hn)]
    simp only
    obtain ⟨l', _, hl', b1, b2, b3⟩ := columnLetter_get h3 (by omega : col < 25)
    obtain rfl : l' = l := by rw [hl'] at hl; exact Option.some.inj hl
    rw [← hcl] at b1 b2 b3
    have hne : lower (c :: r) ≠ "pass".toList := by
      intro he
      have h2 : lower r = "ass".toList := by
        have := congrArg List.tail he; simpa [lower] using this
      rw [h2] at hr
      have : parseInt "ass".toList = .error .valueError := by rfl
      rw [this] at hr; cases hr
    rw [if_neg hne, show lower (c :: r) = c.toLower :: lower r from rfl, vertexColRow_cons,
      if_neg (by simp only [not_or, not_not]; exact ⟨b1, b2⟩), hr]
    simp only
    rw [if_neg (by omega)]
    simp only [b3]
    rw [if_neg (by omega), show row + 1 - 1 = row by omega]

/-- C14: pass is recognised exactly from the word "pass" in any mixture of cases. -/
theorem C14_pass_characterisation (s : Str) (n : Int) :
    moveFromVertex s n = .ok none ↔ (0 < n ∧ n ≤ 25) ∧ lower s = "pass".toList := by
  unfold moveFromVertex
  constructor
  · intro h
    split at h
    · simp at h
    rename_i hn
    simp only at h
    split at h
    · exact ⟨by simpa using hn, by assumption⟩
    · split at h
      · simp at h
      · simp at h
      · simp at h
      · split at h <;> simp at h
  · rintro ⟨h, hs⟩
    rw [if_neg (by simpa using h)]
    simp [hs]

/-- C14: on every string, and for every board size, the result is pass, a point of the board, or ValueError. -/
theorem C14_total (s : Str) (n : Int) :
    moveFromVertex s n = .ok none ∨ (∃ p, moveFromVertex s n = .ok (some p) ∧ OnBoard n.toNat p ∧ n ≤ 25) ∨
    moveFromVertex s n = .error .valueError := by
  rcases h : moveFromVertex s n with e | _ | p
  · right; right
    unfold moveFromVertex at h
    split at h
    · simpa using h.symm
    simp only at h
    split at h
    · simp at h
    split at h
    · simpa using h.symm
    · simpa using h.symm
    · rename_i e' h1 h2 hv
      rcases hs : lower s with _ | ⟨c, r⟩
      · rw [hs] at hv
        simp [vertexColRow, getItem, normIndex, bind, Except.bind] at hv
        exact absurd hv.symm h1
      · rw [hs, vertexColRow_cons] at hv
        split at hv
        · simp at hv; exact absurd hv.symm h2
        split at hv
        · rename_i hp
          have := parseInt_error hp
          simp at hv
          exact absurd (hv.symm.trans this) h2
        · split at hv
          · simp at hv; exact absurd hv.symm h2
          · simp at hv
    · split at h
      · simpa using h.symm
      · simp at h
  · exact Or.inl rfl
  · right; left
    obtain ⟨h1, h2, _⟩ := (C14_characterisation s n p).1 h
    exact ⟨p, rfl, by unfold OnBoard; omega, h1.2⟩

/-- C14: two different moves never have the same vertex. -/
theorem C14_format_injective {m m' : Option Pt} {s : Str} (h : formatVertex m = .ok s) (h' : formatVertex m' = .ok s) :
    m = m' := by
  have key : ∀ {m s}, formatVertex m = .ok s → moveFromVertex s 25 = .ok m := by
    intro m s h
    cases m with
    | none =>
      cases h
      rfl
    | some p =>
      have hp : OnBoard 25 p := by
        obtain ⟨r, c⟩ := p
        unfold formatVertex at h
        simp only at h
        split at h
        · simp at h
        · unfold OnBoard; simp only; omega
      obtain ⟨s', h1, _, h2⟩ := C13_vertex_round_trip 25 (Nat.le_refl _) p hp
      rw [h] at h1
      cases h1
      exact h2 s rfl
  have h1 := key h
  rw [key h'] at h1
  exact (Except.ok.inj h1).symm

/-- C14: formatting fails, with ValueError, exactly for points outside 25x25. -/
theorem C14_format_total (p : Pt) :
    (OnBoard 25 p ↔ ∃ s, formatVertex (some p) = .ok s) ∧
    (¬ OnBoard 25 p → formatVertex (some p) = .error .valueError) := by
  constructor
  · constructor
    · intro hp
      obtain ⟨s, h, _⟩ := C13_vertex_round_trip 25 (Nat.le_refl _) p hp
      exact ⟨s, h⟩
    · rintro ⟨s, h⟩
      obtain ⟨r, c⟩ := p
      unfold formatVertex at h
      simp only at h
      split at h
      · simp at h
      · unfold OnBoard; simp only; omega
  · intro hp
    obtain ⟨r, c⟩ := p
    unfold formatVertex
    unfold OnBoard at hp
    simp only at hp ⊢
    rw [if_pos (by omega)]

/-! ## C15 -/

open Handicap

/-- A successful result satisfies a test. -/
def okB (r : Except Exc (List Pt)) (f : List Pt → Bool) : Bool :=
  match r with
  | .ok l => f l
  | .error _ => false

/-- A result, if successful, satisfies a test. -/
def okB' (r : Except Exc (List Pt)) (f : List Pt → Bool) : Bool :=
  match r with
  | .ok l => f l
  | .error _ => true

/-- C15: a layout is returned exactly when the number of stones is from 2 to the documented maximum; it then has that
many different points, all on the board; everything else gives ValueError. -/
theorem C15_handicap_points (k n : Int) :
    (∃ m, maxFixed n = .ok m ∧ 2 ≤ k ∧ k ≤ m ∧
      ∃ l, points k n = .ok l ∧ (l.length : Int) = k ∧ l.Nodup ∧ ∀ p ∈ l, OnBoard n.toNat p) ∨
    (points k n = .error .valueError ∧ ¬ ∃ m, maxFixed n = .ok m ∧ 2 ≤ k ∧ k ≤ m) := by
  by_cases hn7 : n ≤ 7
  · right
    have hm : maxFixed n = .ok 0 := by unfold maxFixed; rw [if_pos hn7]
    refine ⟨?_, ?_⟩
    · unfold points
      simp only [hm, bind, Except.bind, throw, throwThe, MonadExceptOf.throw]
      by_cases hk : k > 0
      · rw [if_pos hk]
      · rw [if_neg hk]
        rw [if_pos (by omega)]
    · rintro ⟨m, h, h1, h2⟩; rw [hm] at h; cases h; omega
  by_cases hn25 : n > 25
  · right
    have hm : maxFixed n = .error .valueError := by unfold maxFixed; rw [if_neg hn7, if_pos hn25]
    exact ⟨by unfold points; simp [hm, bind, Except.bind], by rw [hm]; simp⟩
  obtain ⟨j, rfl⟩ : ∃ j : Fin 26, n = (j.val : Int) := ⟨⟨n.toNat, by omega⟩, by simp only; omega⟩
  have hj : 8 ≤ j.val := by omega
  have hm : maxFixed (j.val : Int) = .ok (if j.val % 2 = 0 then 4 else 9) := by
    revert j; decide
  by_cases hk2 : k < 2
  · right
    refine ⟨?_, by rw [hm]; rintro ⟨m, h, h1, h2⟩; omega⟩
    unfold points
    simp only [hm, bind, Except.bind, throw, throwThe, MonadExceptOf.throw]
    rw [if_pos hk2]
    split <;> split <;> rfl
  by_cases hk9 : k > 9
  · right
    refine ⟨?_, by rw [hm]; rintro ⟨m, h, h1, h2⟩; cases h; split at h2 <;> omega⟩
    unfold points
    simp only [hm, bind, Except.bind, throw, throwThe, MonadExceptOf.throw]
    rw [if_pos (by split <;> omega)]
  obtain ⟨i, rfl⟩ : ∃ i : Fin 10, k = (i.val : Int) := ⟨⟨k.toNat, by omega⟩, by simp only; omega⟩
  have hi : 2 ≤ i.val := by omega
  by_cases hkm : (i.val : Int) > (if j.val % 2 = 0 then 4 else 9)
  · right
    refine ⟨?_, by rw [hm]; rintro ⟨m, h, h1, h2⟩; cases h; omega⟩
    unfold points
    simp only [hm, bind, Except.bind, throw, throwThe, MonadExceptOf.throw]
    rw [if_pos hkm]
  left
  refine ⟨_, hm, by omega, by omega, ?_⟩
  have key : ∀ (j : Fin 26) (i : Fin 10), 8 ≤ j.val → 2 ≤ i.val → (i.val : Int) ≤ (if j.val % 2 = 0 then 4 else 9) →
      okB (points (i.val : Int) (j.val : Int)) (fun l => decide
        (l.length = i.val ∧ l.Nodup ∧ ∀ p ∈ l, 0 ≤ p.1 ∧ p.1 < j.val ∧ 0 ≤ p.2 ∧ p.2 < j.val)) = true := by
    decide +kernel
  have := key j i hj hi (by omega)
  rcases hp : points (i.val : Int) (j.val : Int) with e | l
  · rw [hp] at this; simp [okB] at this
  · rw [hp] at this
    simp only [okB, decide_eq_true_eq] at this
    refine ⟨l, rfl, by exact_mod_cast this.1, this.2.1, ?_⟩
    intro p hpl
    have := this.2.2 p hpl
    unfold OnBoard
    simpa using this

/-- C15: adding a stone pair by pair: every layout starts with the two opposite corner points, and each corner or
side point is on the line of the documented altitude (third line below 13x13, fourth from 13x13). -/
theorem C15_altitude (k n : Int) (l : List Pt) (h : points k n = .ok l) (p : Pt) (hp : p ∈ l) :
    let alt : Int := if n < 13 then 2 else 3
    (p.1 = alt ∨ p.1 = n - 1 - alt ∨ 2 * p.1 = n - 1) ∧ (p.2 = alt ∨ p.2 = n - 1 - alt ∨ 2 * p.2 = n - 1) := by
  obtain ⟨m, hm, h2, hkm, l', hl', _⟩ | h' := C15_handicap_points k n
  · have hn : 7 < n ∧ n ≤ 25 := by
      unfold maxFixed at hm
      split at hm
      · cases hm; omega
      · split at hm
        · simp at hm
        · omega
    obtain ⟨j, rfl⟩ : ∃ j : Fin 26, n = (j.val : Int) := ⟨⟨n.toNat, by omega⟩, by simp only; omega⟩
    have hm9 : m ≤ 9 := by
      unfold maxFixed at hm
      split at hm
      · cases hm; omega
      · split at hm
        · simp at hm
        · split at hm <;> cases hm <;> omega
    obtain ⟨i, rfl⟩ : ∃ i : Fin 10, k = (i.val : Int) := ⟨⟨k.toNat, by omega⟩, by simp only; omega⟩
    have key : ∀ (j : Fin 26) (i : Fin 10),
        okB' (points (i.val : Int) (j.val : Int)) (fun l => decide (∀ p ∈ l, (fun (alt : Int) => (p.1 = alt ∨ p.1 = (j.val : Int) - 1 - alt ∨ 2 * p.1 = (j.val : Int) - 1) ∧
            (p.2 = alt ∨ p.2 = (j.val : Int) - 1 - alt ∨ 2 * p.2 = (j.val : Int) - 1)) (if (j.val : Int) < 13 then 2 else 3))) = true := by
      decide +kernel
    have := key j i
    rw [h] at this
    simp only [okB', decide_eq_true_eq] at this
    exact this p hp
  · rw [h] at h'; simp at h'

/-- C15: the layout of the GTP specification: two stones are on opposite corner points, from four all four corner points
are used, the centre is used exactly for 5, 7 and 9, the left and right side points from 6, the other two from 8. -/
theorem C15_layout (k n : Int) (l : List Pt) (h : points k n = .ok l) :
    let a : Int := if n < 13 then 2 else 3
    let z : Int := n - 1 - a
    let c : Int := (n - 1) / 2
    (a, a) ∈ l ∧ (z, z) ∈ l ∧ ((z, a) ∈ l ↔ 3 ≤ k) ∧ ((a, z) ∈ l ↔ 4 ≤ k) ∧
    ((c, c) ∈ l ↔ k = 5 ∨ k = 7 ∨ k = 9) ∧
    ((c, a) ∈ l ↔ 6 ≤ k) ∧ ((c, z) ∈ l ↔ 6 ≤ k) ∧ ((a, c) ∈ l ↔ 8 ≤ k) ∧ ((z, c) ∈ l ↔ 8 ≤ k) := by
  obtain ⟨m, hm, h2, hkm, l', hl', _⟩ | h' := C15_handicap_points k n
  · have hn : 7 < n ∧ n ≤ 25 := by
      unfold maxFixed at hm
      split at hm
      · cases hm; omega
      · split at hm
        · simp at hm
        · omega
    obtain ⟨j, rfl⟩ : ∃ j : Fin 26, n = (j.val : Int) := ⟨⟨n.toNat, by omega⟩, by simp only; omega⟩
    have hm9 : m ≤ 9 := by
      unfold maxFixed at hm
      split at hm
      · cases hm; omega
      · split at hm
        · simp at hm
        · split at hm <;> cases hm <;> omega
    obtain ⟨i, rfl⟩ : ∃ i : Fin 10, k = (i.val : Int) := ⟨⟨k.toNat, by omega⟩, by simp only; omega⟩
    have key : ∀ (j : Fin 26) (i : Fin 10),
        okB' (points (i.val : Int) (j.val : Int)) (fun l => decide (
          (fun (a : Int) => (fun (z c : Int) => 
            (a, a) ∈ l ∧ (z, z) ∈ l ∧ ((z, a) ∈ l ↔ 3 ≤ (i.val : Int)) ∧ ((a, z) ∈ l ↔ 4 ≤ (i.val : Int)) ∧
            ((c, c) ∈ l ↔ (i.val : Int) = 5 ∨ (i.val : Int) = 7 ∨ (i.val : Int) = 9) ∧
            ((c, a) ∈ l ↔ 6 ≤ (i.val : Int)) ∧ ((c, z) ∈ l ↔ 6 ≤ (i.val : Int)) ∧
            ((a, c) ∈ l ↔ 8 ≤ (i.val : Int)) ∧ ((z, c) ∈ l ↔ 8 ≤ (i.val : Int)))
            ((j.val : Int) - 1 - a) (((j.val : Int) - 1) / 2))
          (if (j.val : Int) < 13 then 2 else 3))) = true := by
      decide +kernel
    have := key j i
    rw [h] at this
    simp only [okB', decide_eq_true_eq] at this
    exact this
  · rw [h] at h'; simp at h'

/-- C15: the documented bound for free placement leaves room for at least one more stone. -/
theorem C15_max_free (n : Nat) (hn : 1 ≤ n) : 0 ≤ maxFree n ∧ maxFree n < (boardPoints n).length := by
  rw [length_boardPoints]
  unfold maxFree
  push_cast
  constructor
  · have : (1 : Int) ≤ n := by omega
    have := Int.mul_le_mul this this (by omega) (by omega)
    omega
  · exact Int.sub_one_lt_of_le (Int.le_refl _)

/-- C15, disagreement with the dead branch at handicap_layout.py:17: on 7x7 the GTP specification's 4 fixed stones are
not offered. -/
theorem C15_size7 : maxFixed 7 = .ok 0 ∧ points 2 7 = .error .valueError := ⟨rfl, rfl⟩

theorem C15_witness : points 9 19 = .ok [(3,3), (15,15), (15,3), (3,15), (9,3), (9,15), (3,9), (15,9), (9,9)] := rfl

end Gomill
