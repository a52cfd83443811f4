import Verif.Spec.SgfText
import Verif.Spec.Sgf
import Verif.Model.SgfText
import Verif.Lemmas.SgfLex
/-
Lemmas about SGF text values.
-/
namespace Gomill.Sgf

open Py

theorem wsMap_eq (c : Char) : wsMap c = spaceFor c := by
  unfold wsMap spaceFor
  have h1 : c.toNat = 12 ↔ c = Char.ofNat 12 := by
    constructor
    · intro h; rw [← h, Char.ofNat_toNat]
    · rintro rfl; decide
  have h2 : c.toNat = 11 ↔ c = Char.ofNat 11 := by
    constructor
    · intro h; rw [← h, Char.ofNat_toNat]
    · rintro rfl; decide
  simp only [h1, h2, List.mem_cons, List.not_mem_nil, or_false]
  by_cases a : c = '\t' <;> by_cases b : c = Char.ofNat 11 <;> by_cases d : c = Char.ofNat 12 <;> simp [a, b, d]

theorem wsMap_special {c : Char} : wsMap c = '\\' ↔ c = '\\' := by
  unfold wsMap
  split
  · rename_i h
    constructor
    · intro h; simp at h
    · rintro rfl; revert h; decide
  · rfl

theorem wsMap_newline {c : Char} : wsMap c = '\n' ↔ c = '\n' := by
  unfold wsMap
  split
  · rename_i h
    constructor
    · intro h; simp at h
    · rintro rfl; revert h; decide
  · rfl

/-- Character-level form of the chunk loop, on a string with normalised line breaks. -/
def unesc (simple : Bool) : Bool → Str → Str
  | _, [] => []
  | true, c :: r => if c = '\n' then unesc simple false r else c :: unesc simple false r
  | false, c :: r =>
    if c = '\\' then unesc simple true r
    else if simple ∧ c = '\n' then ' ' :: unesc simple false r
    else c :: unesc simple false r

theorem chunks_ne_nil (s : Str) : ∀ c ∈ chunks s, c ≠ [] := by
  induction s with
  | nil => simp [chunks]
  | cons a r ih =>
    rw [chunks]
    split
    · intro c hc
      rcases List.mem_cons.1 hc with rfl | hc
      · simp
      · exact ih c hc
    · unfold consChunk
      split
      · rename_i d p q heq
        rw [heq] at ih
        split
        · intro c hc
          rcases List.mem_cons.1 hc with rfl | hc
          · simp
          · exact ih c hc
        · intro c hc
          rcases List.mem_cons.1 hc with rfl | hc
          · simp
          · exact ih c (List.mem_cons_of_mem _ hc)
      · intro c hc
        rcases List.mem_cons.1 hc with rfl | hc
        · simp
        · exact ih c hc

theorem textLoop_chunks (simple : Bool) (s : Str) (esc : Bool) : textLoop simple esc (chunks s) = unesc simple esc s := by
  induction s generalizing esc with
  | nil => cases esc <;> rfl
  | cons c r ih =>
    rw [chunks]
    by_cases hs : special c = true
    · rw [if_pos hs]
      have hc : c = '\n' ∨ c = '\\' := by simpa [special] using hs
      cases esc with
      | true =>
        rw [textLoop, unesc]
        rcases hc with rfl | rfl
        · simp [ih]
        · simp [ih]
      | false =>
        rw [textLoop, unesc]
        rcases hc with rfl | rfl
        · cases simple <;> simp [ih]
        · simp [ih]
    · rw [if_neg hs]
      have hc1 : c ≠ '\n' := by rintro rfl; exact hs rfl
      have hc2 : c ≠ '\\' := by rintro rfl; exact hs rfl
      have hne := chunks_ne_nil r
      -- the loop on the merged chunks
      have key : ∀ esc, textLoop simple esc (consChunk c (chunks r)) = c :: textLoop simple false (chunks r) := by
        intro esc
        unfold consChunk
        split
        · rename_i d p q heq
          split
          · rw [heq]; cases esc <;> simp [textLoop, hc1, hc2]
          · rename_i hd
            rw [heq]
            have hd1 : d ≠ '\n' := by rintro rfl; exact hd rfl
            have hd2 : d ≠ '\\' := by rintro rfl; exact hd rfl
            cases esc <;> simp [textLoop, hc1, hc2, hd1, hd2]
        · cases esc <;> simp [textLoop, hc1, hc2]
      rw [key, ih false]
      cases esc <;> simp [unesc, hc1, hc2]

theorem simpletextValue_eq (s : Str) : simpletextValue s = unesc true false ((newlineSub s).map wsMap) := textLoop_chunks _ _ _

theorem textValue_eq (s : Str) : textValue s = unesc false false ((newlineSub s).map wsMap) := textLoop_chunks _ _ _

theorem newlineSub_break {b s : Str} (h : LineBreak b s) : newlineSub (b ++ s) = '\n' :: newlineSub s := by
  cases h with
  | lfcr => rfl
  | crlf => rfl
  | lf h =>
    rcases s with _ | ⟨c, s⟩
    · rfl
    · have : c ≠ '\r' := by rintro rfl; exact h rfl
      rw [List.singleton_append, newlineSub]
      rintro r ⟨⟩; exact this rfl
  | cr h =>
    rcases s with _ | ⟨c, s⟩
    · rfl
    · have : c ≠ '\n' := by rintro rfl; exact h rfl
      rw [List.singleton_append, newlineSub]
      rintro r ⟨⟩; exact this rfl

theorem newlineSub_char {c : Char} {s : Str} (h1 : c ≠ '\n') (h2 : c ≠ '\r') : newlineSub (c :: s) = c :: newlineSub s := by
  rw [newlineSub]
  · rintro r rfl; exact absurd rfl h1
  · rintro r rfl; exact absurd rfl h2
  · exact h1
  · exact h2

/-- Every string starts with a line break or with another character. -/
theorem split_first (s : Str) (h : s ≠ []) : (∃ b r, s = b ++ r ∧ LineBreak b r) ∨
    ∃ c r, s = c :: r ∧ c ≠ '\n' ∧ c ≠ '\r' := by
  rcases s with _ | ⟨c, r⟩
  · exact absurd rfl h
  by_cases h1 : c = '\n'
  · subst h1
    left
    rcases r with _ | ⟨d, r⟩
    · exact ⟨['\n'], [], rfl, .lf (by simp)⟩
    · by_cases hd : d = '\r'
      · subst hd; exact ⟨['\n', '\r'], r, rfl, .lfcr⟩
      · exact ⟨['\n'], d :: r, rfl, .lf (by simpa using hd)⟩
  by_cases h2 : c = '\r'
  · subst h2
    left
    rcases r with _ | ⟨d, r⟩
    · exact ⟨['\r'], [], rfl, .cr (by simp)⟩
    · by_cases hd : d = '\n'
      · subst hd; exact ⟨['\r', '\n'], r, rfl, .crlf⟩
      · exact ⟨['\r'], d :: r, rfl, .cr (by simpa using hd)⟩
  exact Or.inr ⟨c, r, rfl, h1, h2⟩

theorem LineBreak.length {b s : Str} (h : LineBreak b s) : 1 ≤ b.length := by cases h <;> simp

theorem means_unesc (simple : Bool) (n : Nat) (s : Str) (hn : s.length ≤ n) :
    Means simple s (unesc simple false ((newlineSub s).map wsMap)) := by
  induction n generalizing s with
  | zero =>
    have : s = [] := by simpa using hn
    subst this; exact .nil
  | succ n ih =>
    by_cases hs : s = []
    · subst hs; exact .nil
    rcases split_first s hs with ⟨b, r, rfl, hb⟩ | ⟨c, r, rfl, h1, h2⟩
    · have hl := hb.length
      have := ih r (by simp at hn; omega)
      rw [newlineSub_break hb]
      have e : unesc simple false (('\n' :: newlineSub r).map wsMap) =
          (if simple then ' ' else '\n') :: unesc simple false ((newlineSub r).map wsMap) := by
        rw [List.map_cons, show wsMap '\n' = '\n' from by decide, unesc]
        cases simple <;> simp
      rw [e]
      exact .lineBreak hb this
    · rw [newlineSub_char h1 h2, List.map_cons]
      simp only [List.length_cons] at hn
      by_cases hb : c = '\\'
      · subst hb
        rw [show wsMap '\\' = '\\' from by decide, unesc, if_pos rfl]
        by_cases hr : r = []
        · subst hr; exact .lone
        rcases split_first r hr with ⟨b, q, rfl, hbq⟩ | ⟨d, q, rfl, e1, e2⟩
        · have hl := hbq.length
          rw [newlineSub_break hbq, List.map_cons, show wsMap '\n' = '\n' from by decide, unesc, if_pos rfl]
          exact .escapedBreak hbq (ih q (by simp at hn; omega))
        · rw [newlineSub_char e1 e2, List.map_cons, unesc, if_neg (by rw [wsMap_newline]; exact e1), wsMap_eq]
          exact .escaped e1 e2 (ih q (by simp at hn; omega))
      · rw [unesc, if_neg (by rw [wsMap_special]; exact hb), if_neg (by rw [wsMap_newline]; exact fun h => h1 h.2), wsMap_eq]
        exact .plain hb h1 h2 (ih r (by omega))

/-! ### escaping -/

/-- Escape the characters in `P`. -/
def escSet (P : Char → Bool) (s : Str) : Str := s.flatMap (fun c => if P c then ['\\', c] else [c])

theorem escSet_cons (P : Char → Bool) (c : Char) (s : Str) :
    escSet P (c :: s) = (if P c then ['\\', c] else [c]) ++ escSet P s := by
  unfold escSet; rw [List.flatMap_cons]

def escP (c : Char) : Bool := c = '\\' || c = ']'
def escPC (c : Char) : Bool := c = '\\' || c = ']' || c = ':'

theorem replaceChar_append (c : Char) (r s t : Str) : replaceChar c r (s ++ t) = replaceChar c r s ++ replaceChar c r t := by
  unfold replaceChar; rw [List.flatMap_append]

theorem escapeText_eq (s : Str) : escapeText s = escSet escP s := by
  unfold escapeText
  induction s with
  | nil => rfl
  | cons c s ih =>
    rw [escSet_cons, ← ih]
    have : replaceChar '\\' ['\\', '\\'] (c :: s) = (if c = '\\' then ['\\', '\\'] else [c]) ++ replaceChar '\\' ['\\', '\\'] s := rfl
    rw [this, replaceChar_append]
    congr 1
    by_cases h1 : c = '\\'
    · subst h1; rfl
    · by_cases h2 : c = ']'
      · subst h2; rfl
      · simp [h1, h2, escP, replaceChar]

theorem replaceColon_escapeText (s : Str) : replaceChar ':' ['\\', ':'] (escapeText s) = escSet escPC s := by
  rw [escapeText_eq]
  induction s with
  | nil => rfl
  | cons c s ih =>
    rw [escSet_cons, escSet_cons, replaceChar_append, ih]
    congr 1
    by_cases h1 : c = '\\'
    · subst h1; rfl
    · by_cases h2 : c = ']'
      · subst h2; rfl
      · by_cases h3 : c = ':'
        · subst h3; rfl
        · simp [h1, h2, h3, escP, escPC, replaceChar]

theorem validValue_escSet {P : Char → Bool} (h1 : P '\\' = true) (h2 : P ']' = true) (s : Str) : ValidValue (escSet P s) := by
  induction s with
  | nil => exact .nil
  | cons c s ih =>
    rw [escSet_cons]
    split
    · exact .escaped ih
    · rename_i h
      exact .plain (by rintro rfl; exact h h1) (by rintro rfl; exact h h2) ih

theorem newlineSub_escSet {P : Char → Bool} (hn : P '\n' = false) (hr : P '\r' = false) (n : Nat) (s : Str) (hl : s.length ≤ n) :
    newlineSub (escSet P s) = escSet P (newlineSub s) := by
  induction n generalizing s with
  | zero =>
    have : s = [] := by simpa using hl
    subst this; rfl
  | succ n ih =>
    by_cases hs : s = []
    · subst hs; rfl
    rcases split_first s hs with ⟨b, r, rfl, hb⟩ | ⟨c, r, rfl, h1, h2⟩
    · have hbl := hb.length
      have e : escSet P (b ++ r) = b ++ escSet P r := by
        unfold escSet
        rw [List.flatMap_append]
        congr 1
        cases hb <;> simp [hn, hr]
      have hb' : LineBreak b (escSet P r) := by
        have head : (escSet P r).head? = some '\r' → r.head? = some '\r' := by
          rcases r with _ | ⟨d, r⟩
          · simp [escSet]
          · rw [escSet_cons]; split <;> simp
        have head' : (escSet P r).head? = some '\n' → r.head? = some '\n' := by
          rcases r with _ | ⟨d, r⟩
          · simp [escSet]
          · rw [escSet_cons]; split <;> simp
        cases hb with
        | lfcr => exact .lfcr
        | crlf => exact .crlf
        | lf h => exact .lf fun hx => h (head hx)
        | cr h => exact .cr fun hx => h (head' hx)
      rw [e, newlineSub_break hb', newlineSub_break hb, escSet_cons, if_neg (by simp [hn]), ih r (by simp at hl; omega)]
      rfl
    · rw [newlineSub_char h1 h2, escSet_cons, escSet_cons]
      simp only [List.length_cons] at hl
      split
      · rw [List.cons_append, newlineSub_char (by decide) (by decide), List.singleton_append, newlineSub_char h1 h2,
          ih r (by omega)]
        rfl
      · rw [List.singleton_append, newlineSub_char h1 h2, ih r (by omega)]
        rfl

/-- The characters to escape are not whitespace. -/
structure EscOk (P : Char → Bool) : Prop where
  bs : P '\\' = true
  nl : P '\n' = false
  cr : P '\r' = false
  ws : ∀ c, P c = true → wsMap c = c
  sp : P ' ' = false

theorem map_wsMap_escSet {P : Char → Bool} (h : EscOk P) (s : Str) : (escSet P s).map wsMap = escSet P (s.map wsMap) := by
  induction s with
  | nil => rfl
  | cons c s ih =>
    rw [escSet_cons, List.map_append, ih, List.map_cons, escSet_cons]
    congr 1
    by_cases hc : P c = true
    · rw [if_pos hc, h.ws c hc, if_pos hc]
      simp [h.ws c hc, show wsMap '\\' = '\\' from by decide]
    · rw [if_neg hc]
      have : ¬ P (wsMap c) = true := by
        unfold wsMap
        split
        · simp [h.sp]
        · exact hc
      rw [if_neg this]
      rfl

theorem unesc_escSet {P : Char → Bool} (h : EscOk P) (simple : Bool) (s : Str) :
    unesc simple false (escSet P s) = s.map (fun c => if simple ∧ c = '\n' then ' ' else c) := by
  induction s with
  | nil => rfl
  | cons c s ih =>
    rw [escSet_cons, List.map_cons]
    by_cases hc : P c = true
    · have hcn : c ≠ '\n' := by rintro rfl; simp [h.nl] at hc
      rw [if_pos hc]
      simp [unesc, hcn, ih]
    · have hcb : c ≠ '\\' := by rintro rfl; exact hc h.bs
      rw [if_neg hc, List.singleton_append, unesc, if_neg hcb, ih]
      by_cases hx : simple = true ∧ c = '\n'
      · rw [if_pos hx, if_pos hx]
      · rw [if_neg hx, if_neg hx]

/-- The text that is read back. -/
def normText (simple : Bool) (s : Str) : Str :=
  ((newlineSub s).map wsMap).map (fun c => if simple ∧ c = '\n' then ' ' else c)

theorem value_escSet {P : Char → Bool} (h : EscOk P) (simple : Bool) (s : Str) :
    unesc simple false ((newlineSub (escSet P s)).map wsMap) = normText simple s := by
  rw [newlineSub_escSet h.nl h.cr s.length s (Nat.le_refl _), map_wsMap_escSet h, unesc_escSet h]
  rfl

theorem escOk_P : EscOk escP := ⟨by decide, by decide, by decide, by
  intro c hc
  simp only [escP, Bool.or_eq_true, decide_eq_true_eq] at hc
  rcases hc with rfl | rfl <;> decide, by decide⟩

theorem escOk_PC : EscOk escPC := ⟨by decide, by decide, by decide, by
  intro c hc
  simp only [escPC, Bool.or_eq_true, decide_eq_true_eq] at hc
  rcases hc with (rfl | rfl) | rfl <;> decide, by decide⟩

theorem normalised_normText (simple : Bool) (n : Nat) (s : Str) (hn : s.length ≤ n) : Normalised simple s (normText simple s) := by
  induction n generalizing s with
  | zero =>
    have : s = [] := by simpa using hn
    subst this; exact .nil
  | succ n ih =>
    by_cases hs : s = []
    · subst hs; exact .nil
    rcases split_first s hs with ⟨b, r, rfl, hb⟩ | ⟨c, r, rfl, h1, h2⟩
    · have hl := hb.length
      have := ih r (by simp at hn; omega)
      have e : normText simple (b ++ r) = (if simple then ' ' else '\n') :: normText simple r := by
        unfold normText
        rw [newlineSub_break hb, List.map_cons, List.map_cons, show wsMap '\n' = '\n' from by decide]
        cases simple <;> simp
      rw [e]
      exact .lineBreak hb this
    · have e : normText simple (c :: r) = spaceFor c :: normText simple r := by
        unfold normText
        rw [newlineSub_char h1 h2, List.map_cons, List.map_cons, if_neg (by rw [wsMap_newline]; exact fun h => h1 h.2), wsMap_eq]
      rw [e]
      exact .char h1 h2 (ih r (by simp at hn; omega))

/-- A text without special whitespace is unchanged. -/
theorem normText_id {simple : Bool} {s : Str} (h : ∀ c ∈ s, c ≠ '\r' ∧ spaceFor c = c ∧ (simple = true → c ≠ '\n')) :
    normText simple s = s := by
  have h1 : newlineSub s = s := by
    induction s with
    | nil => rfl
    | cons c s ih =>
      have hc := h c (by simp)
      have ihs := ih (fun d hd => h d (List.mem_cons_of_mem _ hd))
      by_cases hn : c = '\n'
      · subst hn
        have : LineBreak ['\n'] s := .lf (by
          intro hx
          have := List.mem_of_head? hx
          exact (h '\r' (List.mem_cons_of_mem _ this)).1 rfl)
        have := newlineSub_break this
        rw [List.singleton_append] at this
        rw [this, ihs]
      · rw [newlineSub_char hn hc.1, ihs]
  unfold normText
  rw [h1, List.map_map]
  conv => rhs; rw [← List.map_id s]
  apply List.map_congr_left
  intro c hc
  obtain ⟨_, h2, h3⟩ := h c hc
  simp only [Function.comp, wsMap_eq, h2, id]
  rw [if_neg]
  rintro ⟨a, b⟩
  exact h3 a b

/-! ### compose -/

theorem splitCompose_escSet {P : Char → Bool} (h1 : P '\\' = true) (h2 : P ':' = true) (s t : Str) :
    splitCompose (escSet P s ++ ':' :: t) = some (escSet P s, t) := by
  induction s with
  | nil => simp [escSet, splitCompose]
  | cons c s ih =>
    rw [escSet_cons]
    split
    · show splitCompose ('\\' :: c :: (escSet P s ++ ':' :: t)) = _
      rw [splitCompose, ih]; rfl
    · rename_i hc
      have a1 : c ≠ '\\' := by rintro rfl; exact hc h1
      have a2 : c ≠ ':' := by rintro rfl; exact hc h2
      rw [List.singleton_append, List.cons_append, splitCompose]
      · rw [ih]; rfl
      · intro h; exact absurd h a1
      · rintro d r rfl; exact absurd rfl a1
      · intro h; exact absurd h a2

/-- The first part has no special characters. -/
theorem splitCompose_plain {s t : Str} (h : ∀ c ∈ s, c ≠ '\\' ∧ c ≠ ':') : splitCompose (s ++ ':' :: t) = some (s, t) := by
  have := splitCompose_escSet (P := escPC) rfl rfl s t
  have e : escSet (fun c => c = '\\' || c = ':') s = s := by
    unfold escSet
    induction s with
    | nil => rfl
    | cons c s ih =>
      have hc := h c (by simp)
      rw [List.flatMap_cons, ih (fun d hd => h d (List.mem_cons_of_mem _ hd)) (splitCompose_escSet rfl rfl s t)]
      simp [hc]
  have := splitCompose_escSet (P := fun c => c = '\\' || c = ':') (by decide) (by decide) s t
  rwa [e] at this

end Gomill.Sgf
