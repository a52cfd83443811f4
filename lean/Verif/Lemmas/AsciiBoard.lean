import Verif.Model.AsciiBoard
import Verif.Lemmas.Text
import Verif.Lemmas.BoardSetup
/-
Lemmas for C12: rendering a board and reading the diagram back.
-/
namespace Gomill
open Py Go

/-- Removing stones from a legal position leaves a legal position. -/
theorem legal_sub {n : Nat} {pos pos' : Position} (h : Legal n pos)
    (hs : ∀ q, OnBoard n q → pos' q = none ∨ pos' q = pos q) : Legal n pos' := by
  intro p hp hne
  have hpp : pos' p = pos p := (hs p hp).resolve_left hne
  obtain ⟨q, r, hc, ha, hr, hrn⟩ := h p hp (hpp ▸ hne)
  have key : ∀ {q}, Conn n pos p q → HasLiberty n pos' p ∨ Conn n pos' p q := by
    intro q hc
    induction hc with
    | refl => exact Or.inr .refl
    | @step q r _ ha hr he ih =>
      rcases ih with ih | ih
      · exact Or.inl ih
      · rcases hs r hr with h1 | h1
        · exact Or.inl ⟨q, r, ih, ha, hr, h1⟩
        · exact Or.inr (.step ih ha hr (by rw [h1, he, hpp]))
  rcases key hc with h1 | h1
  · exact h1
  · refine ⟨q, r, h1, ha, hr, ?_⟩
    rcases hs r hr with h2 | h2
    · exact h2
    · rw [h2, hrn]

theorem rulesPlay_of_legal {n : Nat} {pos : Position} {p : Pt} {c : Colour} (h : Legal n (put pos p (some c))) :
    rulesPlay n pos p c = put pos p (some c) := by
  have nd : ∀ d q, ¬ Dead n (put pos p (some c)) d q := by
    rintro d q ⟨h1, h2, h3⟩
    exact h3 (h q h1 (by rw [h2]; simp))
  unfold rulesPlay
  simp only
  rw [if_neg (by rintro ⟨q, hq⟩; exact nd _ _ hq)]
  funext q
  unfold remove
  rw [if_neg (nd _ _)]

namespace Ascii

/-- The character the diagram shows for a point. -/
def charOf : Option Colour → Char
  | none => '.'
  | some .b => '#'
  | some .w => 'o'

theorem colourOf_charOf (x : Option Colour) : colourOf (charOf x) = .ok x := by
  rcases x with _ | _ | _ <;> rfl

theorem interpretLoop_spec {n : Nat} {lines : List Str} {extra : Int} {target : Position} (hl : Legal n target)
    (ps : List Pt)
    (hread : ∀ p ∈ ps, ∃ line, getItem lines ((n : Int) - p.1 - 1) = .ok line ∧
      getItem line (3 * (p.2 + 1) + extra) = .ok (charOf (target p)))
    (hon : ∀ p ∈ ps, OnBoard n p) (hnd : ps.Nodup) (b : Board) (hs : b.side = n) (hwf : b.WF)
    (hpos : ∀ q, OnBoard n q → b.pos q = if q ∈ ps then none else target q) :
    ∃ b', interpretLoop lines n extra ps b = .ok b' ∧ b'.side = n ∧ b'.WF ∧ ∀ q, OnBoard n q → b'.pos q = target q := by
  induction ps generalizing b with
  | nil => exact ⟨b, rfl, hs, hwf, fun q hq => by simpa using hpos q hq⟩
  | cons p ps ih =>
    obtain ⟨line, h1, h2⟩ := hread p (by simp)
    rw [List.nodup_cons] at hnd
    have hp := hon p (by simp)
    obtain ⟨row, col⟩ := p
    simp only [interpretLoop, h1, h2, colourOf_charOf, bind, Except.bind]
    rcases ht : target (row, col) with _ | c
    · simp only
      refine ih (fun q hq => hread q (List.mem_cons_of_mem _ hq)) (fun q hq => hon q (List.mem_cons_of_mem _ hq)) hnd.2
        b hs hwf ?_
      intro q hq
      rw [hpos q hq]
      by_cases hqp : q = (row, col)
      · subst hqp; simp [ht]
      · simp [hqp]
    · simp only
      have he : b.pos (row, col) = none := by rw [hpos _ hp]; simp
      have hlb : Legal b.side b.pos := by
        rw [hs]
        refine legal_sub hl fun q hq => ?_
        rw [hpos q hq]; split <;> simp
      have hlput : Legal b.side (Go.put b.pos (row, col) (some c)) := by
        rw [hs]
        refine legal_sub hl fun q hq => ?_
        unfold Go.put
        split
        · rename_i h; subst h; exact Or.inr ht.symm
        · rw [hpos q hq]; split <;> simp
      obtain ⟨ko, b', e1, e2, e3, e4, _⟩ := playWith_spec hwf defaultPops c hlb (hs ▸ hp) he
      rw [rulesPlay_of_legal hlput] at e4
      have : b.play row col c = .ok (ko, b') := e1
      rw [this]
      simp only
      refine ih (fun q hq => hread q (List.mem_cons_of_mem _ hq)) (fun q hq => hon q (List.mem_cons_of_mem _ hq)) hnd.2
        b' (e2.trans hs) e3 ?_
      intro q hq
      rw [e4]
      unfold Go.put
      by_cases hqp : q = (row, col)
      · subst hqp; simp [ht, hnd.1]
      · rw [if_neg hqp, hpos q hq]; simp [hqp]

/-- One rendered row. -/
def rowLine (n : Nat) (pos : Position) (row : Nat) : Str :=
  (if n > 9 then strInt2 ((row : Int) + 1) else strInt ((row : Int) + 1)) ++ [' '] ++
    join [' '] ((List.range n).map (fun col => pointString (pos ((row : Int), ((col : Nat) : Int)))))

def headerLine (n : Nat) : Str :=
  (if n > 9 then [' '] else []) ++ "   ".toList ++
    join "  ".toList (((List.range n).map (fun i => columnLetters.getD i ' ')).map (fun c => [c]))

def renderedLines (n : Nat) (pos : Position) : List Str :=
  (List.range n).reverse.map (rowLine n pos) ++ [headerLine n]

theorem renderGrid_eq {n : Nat} (hn : n ≤ 25) {fmt : Nat → Nat → Except Exc Str} {pos : Position}
    (h : ∀ row col, row < n → col < n → fmt row col = .ok (pointString (pos ((row : Int), (col : Int))))) :
    renderGrid fmt n = .ok (renderedLines n pos) := by
  unfold renderGrid
  have h1 : (List.range n).mapM (fun (i : Nat) => getItem columnLetters (Int.ofNat i)) =
      .ok ((List.range n).map (fun i => columnLetters.getD i ' ')) := by
    apply mapM_ok
    intro i hi
    have hi : i < n := List.mem_range.1 hi
    have hl : columnLetters.length = 25 := by decide
    rw [getItem_of_lt (by simp) (by simp; omega)]
    simp only [Int.ofNat_eq_natCast, Int.toNat_natCast]
    rw [List.getD_eq_getElem?_getD, List.getElem?_eq_getElem (by omega)]; rfl
  rw [h1]
  have h2 : ∀ row ∈ (List.range n).reverse, (do
      let cells ← (List.range n).mapM (fun col => fmt row col)
      return (if n > 9 then strInt2 ((row : Int) + 1) else strInt ((row : Int) + 1)) ++ [' '] ++ join [' '] cells :
        Except Exc Str) = .ok (rowLine n pos row) := by
    intro row hrow
    have hrow : row < n := by simpa using hrow
    have h3 : (List.range n).mapM (fun col => fmt row col) =
        .ok ((List.range n).map (fun (col : Nat) => pointString (pos ((row : Int), (col : Int))))) := by
      apply mapM_ok
      intro col hcol
      exact h row col hrow (List.mem_range.1 hcol)
    rw [h3]
    rfl
  have h4 := mapM_ok h2
  refine (congrArg (fun r : Except Exc (List Str) => r >>= fun (result : List Str) =>
    (pure (result ++ [(if n > 9 then [' '] else []) ++ "   ".toList ++ join "  ".toList
      (List.map (fun c => [c]) (List.map (fun i => List.getD columnLetters i ' ') (List.range n)))]) :
        Except Exc (List Str))) h4).trans rfl

theorem pointString_length (x : Option Colour) : (pointString x).length = 2 := by
  rcases x with _ | _ | _ <;> rfl

theorem strInt_len1 {k : Nat} (h : k < 10) : (strInt (k : Int)).length = 1 := by
  rw [strInt_natCast, Nat.toDigits_of_lt_base (by omega)]; rfl

theorem strInt2_len {k : Nat} (h : k < 100) : (strInt2 (k : Int)).length = 2 := by
  unfold strInt2
  have h1 : (strInt (k : Int)).length ≤ 2 := by
    rw [strInt_natCast]
    exact (Nat.length_toDigits_le_iff (by decide) (by decide)).2 (by simpa using h)
  simp only [List.length_append, List.length_replicate]
  omega

theorem rowLine_char {n : Nat} (hn : n < 100) {pos : Position} {row col : Nat} (hr : row < n) (hc : col < n) :
    getItem (rowLine n pos row) (3 * ((col : Int) + 1) + (if n > 9 then 1 else 0)) =
      .ok (charOf (pos ((row : Int), (col : Int)))) := by
  have hstart : ((if n > 9 then strInt2 ((row : Int) + 1) else strInt ((row : Int) + 1)) ++ [' ']).length =
      2 + (if n > 9 then 1 else 0) := by
    have hcast : ((row : Int) + 1) = ((row + 1 : Nat) : Int) := by simp
    split
    · rw [hcast, List.length_append, strInt2_len (by omega)]; rfl
    · rw [hcast, List.length_append, strInt_len1 (by omega)]; rfl
  have hidx : (rowLine n pos row)[3 * (col + 1) + (if n > 9 then 1 else 0)]? = some (charOf (pos ((row : Int), (col : Int)))) := by
    unfold rowLine
    rw [List.getElem?_append_right (by rw [hstart]; omega), hstart,
      show 3 * (col + 1) + (if n > 9 then 1 else 0) - (2 + if n > 9 then 1 else 0) = 3 * col + 1 by omega,
      join_cells (by simp [pointString_length]) (by simpa using hc)]
    simp only [List.getElem_map, List.getElem_range]
    rcases pos ((row : Int), (col : Int)) with _ | _ | _ <;> rfl
  rw [List.getElem?_eq_some_iff] at hidx
  obtain ⟨hlt, he⟩ := hidx
  have hi : (3 * ((col : Int) + 1) + (if n > 9 then 1 else 0)) = ((3 * (col + 1) + (if n > 9 then 1 else 0) : Nat) : Int) := by
    push_cast
    split <;> simp
  rw [hi, getItem_of_lt (by omega) (by exact_mod_cast hlt)]
  simp only [Int.toNat_natCast]
  rw [he]

theorem mem_pointString {c : Char} {x : Option Colour} (h : c ∈ pointString x) : c ∈ " .#o".toList := by
  rcases x with _ | _ | _ <;> revert h <;> simp [pointString] <;> rintro (rfl | rfl) <;> simp

theorem mem_strInt_nat {c : Char} {k : Int} (hk : 0 ≤ k) (h : c ∈ strInt k) : c.isDigit = true := by
  unfold strInt at h
  rw [if_neg (by omega)] at h
  exact toDigits_isDigit h

theorem newline_not_mem_row {n : Nat} {pos : Position} {row : Nat} : '\n' ∉ rowLine n pos row := by
  intro h
  unfold rowLine at h
  rw [List.mem_append, List.mem_append] at h
  rcases h with (h | h) | h
  · have key : '\n' ∈ strInt ((row : Int) + 1) := by
      split at h
      · unfold strInt2 at h
        rw [List.mem_append] at h
        rcases h with h | h
        · have := List.eq_of_mem_replicate h; simp at this
        · exact h
      · exact h
    have := mem_strInt_nat (by omega) key
    exact absurd this (by decide)
  · simp at h
  · rcases mem_join h with h | ⟨x, hx, h⟩
    · simp at h
    · obtain ⟨col, _, rfl⟩ := List.mem_map.1 hx
      have := mem_pointString h
      exact absurd this (by decide)

theorem header_chars {n : Nat} (hn : n ≤ 25) {c : Char} (h : c ∈ headerLine n) : c = ' ' ∨ c ∈ columnLetters := by
  unfold headerLine at h
  rw [List.mem_append, List.mem_append] at h
  rcases h with (h | h) | h
  · split at h <;> simp at h; exact Or.inl h
  · left; simpa using h
  · rcases mem_join h with h | ⟨x, hx, h⟩
    · left; simpa using h
    · right
      simp only [List.map_map, List.mem_map, List.mem_range, Function.comp] at hx
      obtain ⟨i, hi, rfl⟩ := hx
      have hl : columnLetters.length = 25 := by decide
      rw [List.mem_singleton] at h
      rw [h, List.getD_eq_getElem?_getD, List.getElem?_eq_getElem (by omega), Option.getD_some]
      exact List.getElem_mem _

theorem newline_not_mem_header {n : Nat} (hn : n ≤ 25) : '\n' ∉ headerLine n := by
  intro h
  rcases header_chars hn h with h | h
  · simp at h
  · exact absurd h (by decide)

theorem join_getLast {sep : Str} {l : List Str} {x : Str} (hx : x ≠ []) : (join sep (l ++ [x])).getLast? = x.getLast? := by
  induction l with
  | nil => rfl
  | cons y r ih =>
    rcases hr : r ++ [x] with _ | ⟨z, zs⟩
    · simp at hr
    · rw [List.cons_append, hr, join, ← hr, List.getLast?_append]
      rw [ih]
      rcases hx' : x.getLast? with _ | a
      · simp at hx'; exact absurd hx' hx
      · rfl

theorem join_head {sep : Str} {x : Str} {l : List Str} (hx : x ≠ []) : (join sep (x :: l)).head? = x.head? := by
  cases l with
  | nil => rfl
  | cons y r =>
    rw [join]
    cases x with
    | nil => exact absurd rfl hx
    | cons a b => rfl

theorem header_last {n : Nat} (h0 : 0 < n) (hn : n ≤ 25) {c : Char} (h : (headerLine n).getLast? = some c) :
    isSpace c = false := by
  obtain ⟨m, rfl⟩ : ∃ m, n = m + 1 := ⟨n - 1, by omega⟩
  unfold headerLine at h
  rw [List.range_succ, List.map_append, List.map_append] at h
  simp only [List.map_cons, List.map_nil] at h
  rw [List.getLast?_append, join_getLast (by simp)] at h
  have : c = columnLetters.getD m ' ' := by simpa using h.symm
  have hm : c ∈ columnLetters := by
    have hl : columnLetters.length = 25 := by decide
    rw [this, List.getD_eq_getElem?_getD, List.getElem?_eq_getElem (by omega), Option.getD_some]
    exact List.getElem_mem _
  have key : ∀ x ∈ columnLetters, isSpace x = false := by decide
  exact key c hm

theorem rowLine_head {n : Nat} (h0 : 0 < n) {pos : Position} {c : Char} (h : (rowLine n pos (n - 1)).head? = some c) :
    isSpace c = false := by
  have hcast : (((n - 1 : Nat) : Int) + 1) = (n : Int) := by omega
  have hs : (if n > 9 then strInt2 (((n - 1 : Nat) : Int) + 1) else strInt (((n - 1 : Nat) : Int) + 1)) = strInt (n : Int) := by
    rw [hcast]
    split
    · rename_i hn
      unfold strInt2
      have : ¬ (strInt (n : Int)).length ≤ 1 := by
        rw [strInt_natCast]
        rw [Nat.length_toDigits_le_iff (by decide) (by decide)]
        omega
      rw [show 2 - (strInt (n : Int)).length = 0 by omega]; rfl
    · rfl
  unfold rowLine at h
  rw [hs] at h
  rcases hx : strInt (n : Int) with _ | ⟨d, ds⟩
  · exact absurd hx (strInt_ne_nil _)
  · rw [hx] at h
    have : d = c := by simpa using h
    subst this
    exact isSpace_of_isDigit (mem_strInt_nat (k := (n : Int)) (by omega) (by rw [hx]; simp))

theorem split_strip_rendered {n : Nat} (h0 : 0 < n) (hn : n ≤ 25) (pos : Position) :
    splitOn '\n' (strip (join ['\n'] (renderedLines n pos))) = renderedLines n pos := by
  have hne : headerLine n ≠ [] := by unfold headerLine; simp
  rw [strip_of_ends]
  · apply splitOn_join
    · unfold renderedLines; simp
    · intro x hx
      unfold renderedLines at hx
      rw [List.mem_append, List.mem_map, List.mem_singleton] at hx
      rcases hx with ⟨row, _, rfl⟩ | rfl
      · exact newline_not_mem_row
      · exact newline_not_mem_header hn
  · intro c hc
    have hr : renderedLines n pos = rowLine n pos (n - 1) :: ((List.range (n - 1)).reverse.map (rowLine n pos) ++ [headerLine n]) := by
      obtain ⟨m, rfl⟩ : ∃ m, n = m + 1 := ⟨n - 1, by omega⟩
      unfold renderedLines
      rw [List.range_succ]
      simp
    rw [hr, join_head (by unfold rowLine; simp)] at hc
    exact rowLine_head h0 hc
  · intro c hc
    unfold renderedLines at hc
    rw [join_getLast hne] at hc
    exact header_last h0 hn hc

theorem rendered_row {n : Nat} {pos : Position} {row : Nat} (hr : row < n) :
    getItem (renderedLines n pos) ((n : Int) - row - 1) = .ok (rowLine n pos row) := by
  have hlt : n - 1 - row < n := by omega
  rw [getItem_of_lt (by omega) (by unfold renderedLines; simp; omega)]
  congr 1
  unfold renderedLines
  have : ((n : Int) - row - 1).toNat = n - 1 - row := by omega
  simp only [this]
  rw [List.getElem_append_left (by simpa using hlt)]
  simp only [List.getElem_map, List.getElem_reverse, List.length_range, List.getElem_range]
  congr 1
  omega

end Ascii
end Gomill
