import Verif.Lemmas.Gtp
namespace Gomill.Gtp
open Py Spec

theorem isResponseControl_iff {c : Char} : isResponseControl c = true ↔ IsControl c := by
  have ht : c = '\t' ↔ c.toNat = 9 := by rw [← toNat_eq_iff]; rfl
  have hn : c = '\n' ↔ c.toNat = 10 := by rw [← toNat_eq_iff]; rfl
  simp only [isResponseControl, IsControl, Bool.or_eq_true, decide_eq_true_eq, Bool.and_eq_true, ne_eq, ht, hn]
  omega

/-! ### rstrip -/

theorem rstrip_last (s : Str) : ∀ c, (rstrip s).getLast? = some c → isSpace c = false := by
  intro c hc
  rw [rstrip, List.getLast?_reverse] at hc
  have := List.head?_dropWhile_not isSpace s.reverse
  rw [hc] at this; exact this

theorem rstrip_prefix (s : Str) : ∃ t, s = rstrip s ++ t ∧ ∀ c ∈ t, isSpace c = true := by
  refine ⟨(s.reverse.takeWhile isSpace).reverse, ?_, ?_⟩
  · rw [rstrip, ← List.reverse_append, List.takeWhile_append_dropWhile, List.reverse_reverse]
  · intro c hc
    exact List.mem_takeWhile_imp (List.mem_reverse.mp hc)

theorem rstrip_spaces {s t : Str} (hs : ∀ c, s.getLast? = some c → isSpace c = false) (ht : ∀ c ∈ t, isSpace c = true) :
    rstrip (s ++ t) = s := by
  rw [rstrip, List.reverse_append, List.dropWhile_append_of_pos (by simpa using ht)]
  have : s.reverse.dropWhile isSpace = s.reverse := by
    cases hr : s.reverse with
    | nil => rfl
    | cons c r =>
      have : s.getLast? = some c := by rw [← List.head?_reverse, hr]; rfl
      simp [hs c this]
  rw [this, List.reverse_reverse]

/-! ### cleaned responses -/

def untab (c : Char) : Char := if c = '\t' then ' ' else c

theorem untab_nl {c : Char} : untab c = '\n' ↔ c = '\n' := by
  unfold untab; split
  · rename_i h; subst h; decide
  · rfl

theorem nn_prefix {c d : Char} {s : Str} : "\n\n".toList <+: c :: d :: s ↔ c = '\n' ∧ d = '\n' := by
  constructor
  · rintro ⟨t, ht⟩; simp at ht; exact ⟨ht.1.symm, ht.2.1.symm⟩
  · rintro ⟨rfl, rfl⟩; exact ⟨s, rfl⟩

theorem nn_map_untab {s : Str} : "\n\n".toList <:+: s.map untab ↔ "\n\n".toList <:+: s := by
  induction s with
  | nil => simp
  | cons c s ih =>
    rw [List.map_cons, List.infix_cons_iff, List.infix_cons_iff, ih]
    cases s with
    | nil => simp [List.prefix_cons_iff]
    | cons d s =>
      rw [List.map_cons, nn_prefix, nn_prefix, untab_nl, untab_nl]

/-- What the channel needs of a response text. -/
structure Good (t : Str) : Prop where
  noControl : ∀ c ∈ t, ¬ IsControl c
  noTab : '\t' ∉ t
  noBlank : ¬ "\n\n".toList <:+: t
  last : ∀ c, t.getLast? = some c → isSpace c = false

theorem cleanResponse_some (s : Str) :
    cleanResponse (some s) = ((replaceBlankLines (rstrip s)).filter (fun c => !isResponseControl c)).map untab := rfl

theorem cleanResponse_noControl (r : Option Str) : ∀ c ∈ cleanResponse r, ¬ IsControl c ∧ c ≠ '\t' := by
  intro c hc
  cases r with
  | none => simp [cleanResponse] at hc
  | some s =>
    rw [cleanResponse_some] at hc
    obtain ⟨d, hd, rfl⟩ := List.mem_map.mp hc
    have hd := (List.mem_filter.mp hd).2
    unfold untab
    split
    · exact ⟨by unfold IsControl; decide, by decide⟩
    · rename_i h
      refine ⟨?_, h⟩
      rw [← isResponseControl_iff]; simpa using hd

theorem filter_of_noControl {s : Str} (h : ∀ c ∈ s, ¬ IsControl c) : s.filter (fun c => !isResponseControl c) = s := by
  rw [List.filter_eq_self]
  intro c hc
  have := h c hc
  rw [← isResponseControl_iff] at this; simpa using this

theorem mem_rstrip {c : Char} {s : Str} (h : c ∈ rstrip s) : c ∈ s := by
  obtain ⟨t, ht, _⟩ := rstrip_prefix s
  rw [ht]; simp [h]

theorem cleanResponse_of_noControl {s : Str} (h : ∀ c ∈ s, ¬ IsControl c) :
    cleanResponse (some s) = (replaceBlankLines (rstrip s)).map untab := by
  rw [cleanResponse_some, filter_of_noControl]
  intro c hc
  rcases mem_replaceBlankLines hc with rfl | hc
  · unfold IsControl; decide
  · exact h c (mem_rstrip hc)

theorem cleanResponse_nn {s : Str} (h : ∀ c ∈ s, ¬ IsControl c) :
    "\n\n".toList <:+: cleanResponse (some s) ↔ "\n\n\n".toList <:+: rstrip s := by
  rw [cleanResponse_of_noControl h, nn_map_untab, replaceBlankLines_nn]

theorem cleanResponse_last {s : Str} (h : ∀ c ∈ s, ¬ IsControl c) :
    ∀ c, (cleanResponse (some s)).getLast? = some c → isSpace c = false := by
  intro c hc
  rw [cleanResponse_of_noControl h, List.getLast?_map, replaceBlankLines_last] at hc
  cases hq : (rstrip s).getLast? with
  | none => rw [hq] at hc; simp at hc
  | some d =>
    rw [hq] at hc
    have hd := rstrip_last s d hq
    simp [untab] at hc
    split at hc
    · rename_i h; subst h; exact absurd hd (by decide)
    · rw [← hc]; exact hd

theorem good_clean {s : Str} (h : Sendable s) : Good (cleanResponse (some s)) where
  noControl := fun c hc => (cleanResponse_noControl _ c hc).1
  noTab := fun hc => (cleanResponse_noControl _ _ hc).2 rfl
  noBlank := by
    rw [cleanResponse_nn h.1]
    intro hq
    apply h.2
    obtain ⟨t, ht, _⟩ := rstrip_prefix s
    rw [ht]; exact hq.trans (List.infix_append [] _ _)
  last := cleanResponse_last h.1

theorem good_nil : Good [] := ⟨by simp, by simp, by decide, by simp⟩

/-! ### framing -/

theorem framed_of {x : Str} (h : ¬ "\n\n".toList <:+: x) (hl : x.getLast? ≠ some '\n') : Framed (x ++ "\n\n".toList) := by
  refine ⟨⟨x, rfl⟩, ?_⟩
  intro a b hab
  by_contra hb
  have hlast : b.getLast? = some '\n' := by
    have := congrArg List.getLast? hab
    rw [List.getLast?_append, List.getLast?_append] at this
    cases hq : b.getLast? with
    | none => exact absurd (List.getLast?_eq_none_iff.mp hq) hb
    | some d => rw [hq] at this; simp at this; rw [← this]
  obtain ⟨b', rfl⟩ : ∃ b', b = b' ++ ['\n'] := by
    rcases List.eq_nil_or_concat b with h | ⟨b', d, rfl⟩
    · exact absurd h hb
    · rw [List.concat_eq_append, List.getLast?_append] at hlast; simp at hlast; subst hlast; exact ⟨b', List.concat_eq_append⟩
  have hab : x ++ ['\n'] = a ++ "\n\n".toList ++ b' := by
    have : (x ++ ['\n']) ++ ['\n'] = (a ++ "\n\n".toList ++ b') ++ ['\n'] := by
      rw [List.append_assoc, List.append_assoc (a ++ _)]; exact hab
    exact List.append_cancel_right this
  have : "\n\n".toList <:+: x ++ ['\n'] := by rw [hab]; exact List.infix_append _ _ _
  rw [nn_append] at this
  rcases this with h1 | h1 | h1
  · exact h h1
  · revert h1; decide
  · exact hl h1.1

/-! ### reading -/

theorem readLine_noNl {l r : Str} (h : '\n' ∉ l) : readLine (l ++ '\n' :: r) = (l ++ ['\n'], r) := by
  induction l with
  | nil => simp [readLine]
  | cons c l ih =>
    simp only [List.mem_cons, not_or] at h
    rw [List.cons_append, readLine, if_neg (fun hc => h.1 hc.symm), ih h.2]
    rfl

theorem endsNl_append (l : Str) : endsNl (l ++ ['\n']) = true := by simp [endsNl]

/-- One step of the loop, when the line isn't blank or a response has begun. -/
theorem readLoop_step {fuel : Nat} {seen : Bool} {lines : List Str} {l r : Str} (h : '\n' ∉ l) (hne : l ≠ [])
    (hc : ∀ c ∈ l, ¬ IsControl c) (hs : seen = true ∨ ∃ c ∈ l, isSpace c = false) :
    readLoop (fuel + 1) none seen lines (l ++ '\n' :: r) = readLoop fuel none true (lines ++ [l ++ ['\n']]) r := by
  have hc' : ∀ c ∈ l ++ ['\n'], ¬ IsControl c := by
    intro c h
    rcases List.mem_append.mp h with h | h
    · exact hc c h
    · simp at h; subst h; unfold IsControl; decide
  have hseen : (!seen && decide (strip (l ++ ['\n']) = [])) = false := by
    rcases hs with rfl | ⟨c, hcl, hcs⟩
    · rfl
    · have : strip (l ++ ['\n']) ≠ [] := by
        intro h0
        rw [strip] at h0
        obtain ⟨t, ht, hts⟩ := rstrip_prefix (lstrip (l ++ ['\n']))
        rw [h0, List.nil_append] at ht
        have hall : ∀ d ∈ l ++ ['\n'], isSpace d = true := by
          intro d hd
          rw [← List.takeWhile_append_dropWhile (p := isSpace) (l := l ++ ['\n'])] at hd
          rcases List.mem_append.mp hd with hd | hd
          · exact List.mem_takeWhile_imp hd
          · exact hts d (ht ▸ hd)
        rw [hall c (by simp [hcl])] at hcs; cases hcs
      simp [this]
  have hnn : l ++ ['\n'] ≠ ['\n'] := by simpa using hne
  rw [readLoop]
  simp only [readLine_noNl h, filter_of_noControl hc', hseen, hnn, endsNl_append, Bool.false_eq_true, if_false,
    Bool.not_true]

theorem split_nl (s : Str) : '\n' ∉ s ∨ ∃ l r, s = l ++ '\n' :: r ∧ '\n' ∉ l := by
  by_cases h : '\n' ∈ s
  · right
    obtain ⟨l, r, h1, h2⟩ := List.eq_append_cons_of_mem h
    exact ⟨l, r, h1, h2⟩
  · exact Or.inl h

/-- Reading a response: the lines of `body`, then a blank line. -/
theorem readLoop_body (n : Nat) : ∀ (body : Str), body.length ≤ n → ∀ (fuel : Nat) (seen : Bool) (lines : List Str) (rest : Str),
    body.length + 2 ≤ fuel → (seen = true ∨ ∃ c, body.head? = some c ∧ isSpace c = false) →
    body ≠ [] → body.head? ≠ some '\n' → body.getLast? ≠ some '\n' → ¬ "\n\n".toList <:+: body →
    (∀ c ∈ body, ¬ IsControl c) →
    ∃ l ls, readLoop fuel none seen lines (body ++ '\n' :: '\n' :: rest) = (lines ++ ((l ++ ['\n']) :: ls), rest) ∧
      (l ++ ['\n']) ++ ls.flatten = body ++ ['\n'] ∧ l ≠ [] := by
  induction n with
  | zero =>
    intro body h _ _ _ _ _ _ hne
    exact absurd (List.length_eq_zero_iff.mp (Nat.le_zero.mp h)) hne
  | succ n ih =>
    intro body hlen fuel seen lines rest hf hs hne hh hl hnn hc
    obtain ⟨fuel, rfl⟩ : ∃ k, fuel = k + 1 := ⟨fuel - 1, by omega⟩
    rcases split_nl body with hno | ⟨l, r, rfl, hno⟩
    · have hs' : seen = true ∨ ∃ c ∈ body, isSpace c = false := by
        rcases hs with h | ⟨c, h1, h2⟩
        · exact Or.inl h
        · exact Or.inr ⟨c, List.mem_of_head? h1, h2⟩
      refine ⟨body, [], ?_, by simp, hne⟩
      rw [readLoop_step hno hne hc hs']
      have hpos : 0 < body.length := List.length_pos_iff.mpr hne
      obtain ⟨fuel, rfl⟩ : ∃ k, fuel = k + 1 := ⟨fuel - 1, by omega⟩
      rw [readLoop]
      have : readLine ('\n' :: rest) = (['\n'], rest) := by simp [readLine]
      have hfil : List.filter (fun c => !isResponseControl c) ['\n'] = ['\n'] := by decide
      simp [this, hfil]
    · have hlne : l ≠ [] := by rintro rfl; simp at hh
      have hrne : r ≠ [] := by rintro rfl; simp at hl
      have hs' : seen = true ∨ ∃ c ∈ l, isSpace c = false := by
        rcases hs with h | ⟨c, h1, h2⟩
        · exact Or.inl h
        · cases l with
          | nil => exact absurd rfl hlne
          | cons d l => simp at h1; exact Or.inr ⟨d, by simp, h1 ▸ h2⟩
      have hr1 : r.head? ≠ some '\n' := by
        intro h
        apply hnn
        cases r with
        | nil => simp at h
        | cons d r => simp at h; subst h; exact ⟨l, r, by simp⟩
      have hr2 : r.getLast? ≠ some '\n' := by
        rw [List.getLast?_append, List.getLast?_cons] at hl
        cases hq : r.getLast? with
        | none => simp
        | some d => rw [hq] at hl; simpa using hl
      have hr3 : ¬ "\n\n".toList <:+: r := fun h => hnn (h.trans ⟨l ++ ['\n'], [], by simp⟩)
      obtain ⟨l', ls, h1, h2, _⟩ := ih r (by simp at hlen; omega) fuel true (lines ++ [l ++ ['\n']]) rest
        (by simp at hf; omega) (Or.inl rfl) hrne hr1 hr2 hr3 (fun c h => hc c (by simp [h]))
      refine ⟨l, (l' ++ ['\n']) :: ls, ?_, ?_, hlne⟩
      · have : l ++ '\n' :: r ++ '\n' :: '\n' :: rest = l ++ '\n' :: (r ++ '\n' :: '\n' :: rest) := by simp
        rw [this, readLoop_step hno hlne (fun c h => hc c (by simp [h])) hs', h1]
        simp
      · rw [List.flatten_cons, h2]; simp

theorem map_untab_id {s : Str} (h : '\t' ∉ s) : s.map untab = s := by
  conv => rhs; rw [← List.map_id s]
  apply List.map_congr_left
  intro c hc
  unfold untab
  rw [if_neg (by rintro rfl; exact h hc)]; rfl

theorem lstripBlank_append {s t : Str} (h : ∃ c ∈ s, isBlank c = false) : lstripBlank (s ++ t) = lstripBlank s ++ t := by
  obtain ⟨c, hc, hb⟩ := h
  unfold lstripBlank
  induction s with
  | nil => simp at hc
  | cons d s ih =>
    rw [List.cons_append]
    by_cases hd : isBlank d = true
    · rw [List.dropWhile_cons_of_pos hd, List.dropWhile_cons_of_pos hd]
      apply ih
      rcases List.mem_cons.mp hc with rfl | hc
      · rw [hd] at hb; cases hb
      · exact hc
    · rw [List.dropWhile_cons_of_neg hd, List.dropWhile_cons_of_neg hd, List.cons_append]

theorem lstripBlank_last {t : Str} (h : ∀ c, t.getLast? = some c → isSpace c = false) :
    ∀ c, (lstripBlank t).getLast? = some c → isSpace c = false := by
  intro c hc
  have hs : lstripBlank t <:+ t := List.dropWhile_suffix _
  obtain ⟨p, hp⟩ := hs
  apply h
  rw [← hp, List.getLast?_append, hc]; rfl

theorem interpret_body {c : Char} {b l : Str} {ls : List Str} (hc : c = '?' ∨ c = '=') (hl : l ≠ [])
    (hflat : (l ++ ['\n']) ++ ls.flatten = c :: b ++ ['\n']) (hlast : ∀ d, b.getLast? = some d → isSpace d = false)
    (htab : '\t' ∉ b) :
    interpretLines ((l ++ ['\n']) :: ls) = .ok (decide (c = '?'), lstripBlank b) := by
  obtain ⟨d, l, rfl⟩ := List.exists_cons_of_ne_nil hl
  simp only [List.cons_append, List.cons.injEq] at hflat
  obtain ⟨rfl, hflat⟩ := hflat
  have hc' : ¬ (d ≠ '?' ∧ d ≠ '=') := by rcases hc with rfl | rfl <;> simp
  simp only [interpretLines, List.cons_append, if_neg hc', Except.ok.injEq, Prod.mk.injEq, true_and]
  have h1 : (lstripBlank (l ++ ['\n']) :: ls).flatten = lstripBlank (b ++ ['\n']) := by
    rw [List.flatten_cons, ← lstripBlank_append ⟨'\n', by simp, by decide⟩, hflat]
  have hb : lstripBlank (b ++ ['\n']) = lstripBlank b ++ ['\n'] := by
    by_cases hq : ∃ c ∈ b, isBlank c = false
    · exact lstripBlank_append hq
    · have hall : ∀ c ∈ b, isBlank c = true := by
        intro c h
        by_contra hx
        exact hq ⟨c, h, by simpa using hx⟩
      have : b = [] := by
        rcases List.eq_nil_or_concat b with h | ⟨b', d', rfl⟩
        · exact h
        · have hsp := hlast d' (by simp [List.concat_eq_append])
          have := isSpace_of_isBlank (hall d' (by simp [List.concat_eq_append]))
          rw [hsp] at this; cases this
      subst this; decide
  rw [h1, hb, rstrip_spaces (lstripBlank_last hlast) (by intro c h; simp at h; subst h; decide)]
  apply map_untab_id
  intro h
  exact htab ((List.dropWhile_sublist isBlank).subset h)

/-- The channel reads back a response. -/
theorem getResponse_responseText (first isError : Bool) {t : Str} (ht : Good t) (rest : Str) :
    getResponse first (responseText isError none t ++ rest) = (.ok (isError, lstripBlank t), rest) := by
  obtain ⟨c, hc, hcd, hcs, hcn⟩ : ∃ c : Char, (if isError then '?' else '=') = c ∧ decide (c = '?') = isError ∧
      isSpace c = false ∧ (c = '?' ∨ c = '=') := by
    cases isError
    · exact ⟨'=', rfl, by decide, by decide, Or.inr rfl⟩
    · exact ⟨'?', rfl, by decide, by decide, Or.inl rfl⟩
  have hcc : ¬ IsControl c := by rcases hcn with rfl | rfl <;> (unfold IsControl; decide)
  have hcnl : c ≠ '\n' := by rcases hcn with rfl | rfl <;> decide
  let b : Str := if t = [] then [] else ' ' :: t
  have hb : lstripBlank b = lstripBlank t := by
    show lstripBlank (if t = [] then [] else ' ' :: t) = _
    split
    · rename_i h; rw [h]
    · rfl
  have hsp : ∀ x ∈ b, x = ' ' ∨ x ∈ t := by
    intro x hx
    by_cases h : t = []
    · simp [b, h] at hx
    · simpa [b, h] using hx
  have hlast : ∀ d, b.getLast? = some d → isSpace d = false := by
    intro d hd
    by_cases h : t = []
    · simp [b, h] at hd
    · obtain ⟨e, he⟩ : ∃ e, t.getLast? = some e := by
        cases hq : t.getLast? with
        | none => exact absurd (List.getLast?_eq_none_iff.mp hq) h
        | some e => exact ⟨e, rfl⟩
      simp [b, h, List.getLast?_cons, he] at hd
      exact ht.last d (hd ▸ he)
  have htab : '\t' ∉ b := by
    intro h
    rcases hsp _ h with h | h
    · revert h; decide
    · exact ht.noTab h
  have hctl : ∀ x ∈ c :: b, ¬ IsControl x := by
    intro x hx
    rcases List.mem_cons.mp hx with rfl | hx
    · exact hcc
    · rcases hsp x hx with rfl | hx
      · unfold IsControl; decide
      · exact ht.noControl x hx
  have hnl : (c :: b).getLast? ≠ some '\n' := by
    rw [List.getLast?_cons]
    cases hq : b.getLast? with
    | none => simpa using hcnl
    | some d => have := hlast d hq; simp; rintro rfl; revert this; decide
  have hnn : ¬ "\n\n".toList <:+: c :: b := by
    by_cases h : t = []
    · simp [b, h, List.infix_cons_iff, List.prefix_cons_iff]
    · have : c :: b = [c, ' '] ++ t := by simp [b, h]
      rw [this, nn_append]
      rintro (h | h | h)
      · simp [List.infix_cons_iff, List.prefix_cons_iff] at h
        obtain ⟨x, ⟨hx, _⟩, _⟩ := h
        exact hcnl hx.symm
      · exact ht.noBlank h
      · simp at h
  have htext : responseText isError none t ++ rest = (c :: b) ++ '\n' :: '\n' :: rest := by
    simp [responseText, hc, b]
  rw [htext]
  have hbody := fun fuel hf => readLoop_body (c :: b).length (c :: b) (Nat.le_refl _) fuel false [] rest hf
    (Or.inr ⟨c, rfl, hcs⟩) (by simp) (by simpa using hcnl) hnl hnn hctl
  cases first with
  | false =>
    obtain ⟨l, ls, h1, h2, h3⟩ := hbody (((c :: b) ++ '\n' :: '\n' :: rest).length + 1) (by simp)
    simp only [getResponse, Bool.false_eq_true, if_false]
    rw [h1]
    simp only [List.nil_append]
    rw [interpret_body hcn h3 h2 hlast htab, hcd, hb]
  | true =>
    simp only [getResponse, if_true, List.cons_append]
    have hmem : c ∈ [' ', '\t', '\r', '\n', '#', '=', '?'] := by rcases hcn with rfl | rfl <;> decide
    simp only [hmem, hcnl, not_true, if_false]
    obtain ⟨l, ls, h1, h2, h3⟩ := hbody ((b ++ '\n' :: '\n' :: rest).length + 2) (by simp)
    have hpk : ∀ fuel lines seen r, readLoop (fuel + 1) (some c) seen lines r = readLoop (fuel + 1) none seen lines (c :: r) := by
      intro fuel lines seen r
      rw [readLoop.eq_def, readLoop.eq_def]
      simp [readLine, hcnl]
    rw [hpk, ← List.cons_append, h1]
    simp only [List.nil_append]
    rw [interpret_body hcn h3 h2 hlast htab, hcd, hb]

end Gomill.Gtp
