import Verif.Lemmas.GtpChannel
/-
C60: what the controller makes of whatever bytes an engine sends.

The vocabulary (`IsLine`, `clean`, `IsText`, `Means`) doesn't mention the reading loop.
-/
namespace Gomill.Gtp
open Py Spec

/-- A complete line: it ends in a newline, and has no other. -/
def IsLine (l : Str) : Prop := ∃ t, '\n' ∉ t ∧ l = t ++ ['\n']

open Classical in
/-- What is left of a string when its control characters (other than tab and newline) are discarded. -/
noncomputable def clean (s : Str) : Str := s.filter (fun c => decide (¬ IsControl c))

/-- Nothing but whitespace, once control characters are discarded. -/
def Blank (s : Str) : Prop := ∀ c ∈ clean s, isSpace c = true

/-- `t` is `s` without the spaces and tabs at its start and the whitespace at its end, and with spaces for tabs. -/
def IsText (s t : Str) : Prop :=
  ∃ lead mid trail, s = lead ++ mid ++ trail ∧ (∀ c ∈ lead, c = ' ' ∨ c = '\t') ∧ (∀ c ∈ trail, isSpace c = true) ∧
    (∀ c, mid.head? = some c → c ≠ ' ' ∧ c ≠ '\t') ∧ (∀ c, mid.getLast? = some c → isSpace c = false) ∧
    t = mid.map (fun c => if c = '\t' then ' ' else c)

/-- The meaning of the text of a response: '=' for success, '?' for failure, and anything else is a protocol error. -/
def Means (text : Str) (out : Except ChanExc (Bool × Str)) : Prop :=
  (∃ s t, text = '=' :: s ∧ IsText s t ∧ out = .ok (false, t)) ∨
  (∃ s t, text = '?' :: s ∧ IsText s t ∧ out = .ok (true, t)) ∨
  (text.head? ≠ some '=' ∧ text.head? ≠ some '?' ∧ out = .error .protocol)

/-! ### lemmas -/

theorem clean_eq (s : Str) : s.filter (fun c => !isResponseControl c) = clean s := by
  unfold clean
  apply List.filter_congr
  intro c _
  by_cases h : IsControl c
  · simp [h, isResponseControl_iff.mpr h]
  · have : isResponseControl c = false := by
      cases hq : isResponseControl c with
      | false => rfl
      | true => exact absurd (isResponseControl_iff.mp hq) h
    simp [h, this]

theorem clean_append (s t : Str) : clean (s ++ t) = clean s ++ clean t := by unfold clean; exact List.filter_append _ _

theorem clean_nl : clean ['\n'] = ['\n'] := by rw [← clean_eq]; decide

theorem mem_clean {c : Char} {s : Str} (h : c ∈ clean s) : c ∈ s ∧ ¬ IsControl c := by
  unfold clean at h
  rw [List.mem_filter] at h
  exact ⟨h.1, by simpa using h.2⟩

theorem strip_nil_iff (s : Str) : strip s = [] ↔ ∀ c ∈ s, isSpace c = true := by
  constructor
  · intro h d hd
    obtain ⟨t, ht, hts⟩ := rstrip_prefix (lstrip s)
    rw [strip] at h
    rw [h, List.nil_append] at ht
    rw [← List.takeWhile_append_dropWhile (p := isSpace) (l := s)] at hd
    rcases List.mem_append.mp hd with hd | hd
    · exact List.mem_takeWhile_imp hd
    · exact hts d (ht ▸ hd)
  · intro h
    rw [strip, lstrip, List.dropWhile_eq_nil_iff.mpr h]; rfl

theorem IsLine.clean_ends {l : Str} (h : IsLine l) : endsNl (clean l) = true := by
  obtain ⟨t, _, rfl⟩ := h
  rw [clean_append, clean_nl]; exact endsNl_append _

theorem IsLine.read {l : Str} (h : IsLine l) (r : Str) : readLine (l ++ r) = (l, r) := by
  obtain ⟨t, ht, rfl⟩ := h
  rw [List.append_assoc]; exact readLine_noNl ht

theorem readLine_none {z : Str} (h : '\n' ∉ z) : readLine z = (z, []) := by
  induction z with
  | nil => rfl
  | cons c z ih =>
    simp only [List.mem_cons, not_or] at h
    rw [readLine, if_neg (fun hc => h.1 hc.symm), ih h.2]

theorem not_endsNl {z : Str} (h : '\n' ∉ z) : endsNl (clean z) = false := by
  unfold endsNl
  rw [decide_eq_false_iff_not]
  intro hq
  exact h (mem_clean (List.mem_of_getLast? hq)).1

theorem IsLine.pos {l : Str} (h : IsLine l) : 0 < l.length := by obtain ⟨t, _, rfl⟩ := h; simp

/-- Blank lines before a response are skipped. -/
theorem skip_blank (bs : List Str) : ∀ (fuel : Nat) (s : Str), (∀ b ∈ bs, IsLine b ∧ Blank b) → bs.flatten.length ≤ fuel →
    ∃ fuel', fuel ≤ fuel' + bs.flatten.length ∧ readLoop fuel none false [] (bs.flatten ++ s) = readLoop fuel' none false [] s := by
  induction bs with
  | nil => intro fuel s _ _; exact ⟨fuel, by simp, rfl⟩
  | cons b bs ih =>
    intro fuel s hb hf
    have h1 := hb b (by simp)
    have hp := h1.1.pos
    rw [List.flatten_cons, List.length_append] at hf
    obtain ⟨fuel, rfl⟩ : ∃ k, fuel = k + 1 := ⟨fuel - 1, by omega⟩
    obtain ⟨f', h2, h3⟩ := ih fuel s (fun x hx => hb x (by simp [hx])) (by omega)
    refine ⟨f', by rw [List.flatten_cons, List.length_append]; omega, ?_⟩
    rw [List.flatten_cons, List.append_assoc, readLoop]
    simp only [h1.1.read, clean_eq, h1.1.clean_ends, (strip_nil_iff _).mpr h1.2, Bool.not_false, decide_true, Bool.and_true,
      if_true]
    exact h3

/-- The lines of a response are collected. -/
theorem collect (ls : List Str) : ∀ (fuel : Nat) (lines : List Str) (s : Str), (∀ l ∈ ls, IsLine l ∧ clean l ≠ ['\n']) →
    ls.flatten.length ≤ fuel → ∃ fuel', fuel ≤ fuel' + ls.flatten.length ∧
      readLoop fuel none true lines (ls.flatten ++ s) = readLoop fuel' none true (lines ++ ls.map clean) s := by
  induction ls with
  | nil => intro fuel lines s _ _; exact ⟨fuel, by simp, by simp⟩
  | cons l ls ih =>
    intro fuel lines s hl hf
    have h1 := hl l (by simp)
    have hp := h1.1.pos
    rw [List.flatten_cons, List.length_append] at hf
    obtain ⟨fuel, rfl⟩ : ∃ k, fuel = k + 1 := ⟨fuel - 1, by omega⟩
    obtain ⟨f', h2, h3⟩ := ih fuel (lines ++ [clean l]) s (fun x hx => hl x (by simp [hx])) (by omega)
    refine ⟨f', by rw [List.flatten_cons, List.length_append]; omega, ?_⟩
    rw [List.flatten_cons, List.append_assoc, readLoop]
    simp only [h1.1.read, clean_eq, h1.1.clean_ends, h1.2, Bool.not_true, Bool.false_and, Bool.false_eq_true, if_false]
    rw [h3]; simp

/-- The first line of a response. -/
theorem first_line {l : Str} (hl : IsLine l) (hb : ¬ Blank l) (fuel : Nat) (s : Str) :
    readLoop (fuel + 1) none false [] (l ++ s) = readLoop fuel none true [clean l] s := by
  have hs : strip (clean l) ≠ [] := fun h => hb ((strip_nil_iff _).mp h)
  have hn : clean l ≠ ['\n'] := by
    intro h
    apply hb
    intro c hc; rw [h] at hc; simp at hc; subst hc; decide
  rw [readLoop]
  simp only [hl.read, clean_eq, hl.clean_ends, hs, hn, decide_false, Bool.and_false, Bool.false_eq_true, if_false, Bool.not_true,
    List.nil_append]

theorem clean_flatten (ls : List Str) : (ls.map clean).flatten = clean ls.flatten := by
  induction ls with
  | nil => rfl
  | cons l ls ih => rw [List.map_cons, List.flatten_cons, List.flatten_cons, clean_append, ih]

theorem isText_tidy (s : Str) : IsText s ((rstrip (lstripBlank s)).map untab) := by
  obtain ⟨t, ht, hts⟩ := rstrip_prefix (lstripBlank s)
  refine ⟨s.takeWhile isBlank, rstrip (lstripBlank s), t, ?_, ?_, hts, ?_, rstrip_last _, rfl⟩
  · rw [List.append_assoc, ← ht]; exact (List.takeWhile_append_dropWhile).symm
  · intro c hc
    have := List.mem_takeWhile_imp hc
    rw [Or.comm]; simpa [isBlank] using this
  · intro c hc
    have hne : rstrip (lstripBlank s) ≠ [] := by intro h; rw [h] at hc; simp at hc
    have : (lstripBlank s).head? = some c := by
      rw [ht, List.head?_append, hc]; rfl
    have hb : isBlank c = false := by
      have hx := List.head?_dropWhile_not isBlank s
      unfold lstripBlank at this
      rw [this] at hx; exact hx
    rw [And.comm]; simpa [isBlank] using hb

theorem means_interpret {l : Str} {ls : List Str} (hne : l ≠ []) (hl : '\n' ∈ l ∨ ls = []) :
    Means ((l :: ls).flatten) (interpretLines (l :: ls)) := by
  obtain ⟨c, r, rfl⟩ := List.exists_cons_of_ne_nil hne
  by_cases hc : c ≠ '?' ∧ c ≠ '='
  · refine Or.inr (Or.inr ⟨by simpa using hc.2, by simpa using hc.1, ?_⟩)
    simp only [interpretLines, if_pos hc]
  · have hc' : c = '?' ∨ c = '=' := by
      by_contra hx
      exact hc ⟨fun h => hx (Or.inl h), fun h => hx (Or.inr h)⟩
    have hr : (lstripBlank r :: ls).flatten = lstripBlank (r ++ ls.flatten) := by
      rw [List.flatten_cons]
      rcases hl with h | rfl
      · have h' : '\n' ∈ r := by
          rcases List.mem_cons.mp h with h | h
          · rcases hc' with rfl | rfl <;> exact absurd h (by decide)
          · exact h
        rw [lstripBlank_append ⟨'\n', h', by decide⟩]
      · simp
    simp only [interpretLines, if_neg hc]
    rw [hr]
    rcases hc' with rfl | rfl
    · exact Or.inr (Or.inl ⟨_, _, rfl, isText_tidy _, by simp [untab]⟩)
    · exact Or.inl ⟨_, _, rfl, isText_tidy _, by simp [untab]⟩

theorem IsLine.nl_mem {l : Str} (h : IsLine l) : '\n' ∈ clean l := by
  obtain ⟨t, _, rfl⟩ := h
  rw [clean_append, clean_nl]; simp

/-- The loop, on a response ended by an empty line. -/
theorem readLoop_response {bs ls : List Str} {l t r : Str} (hb : ∀ b ∈ bs, IsLine b ∧ Blank b)
    (hl : IsLine l) (hlb : ¬ Blank l) (hls : ∀ x ∈ ls, IsLine x ∧ clean x ≠ ['\n']) (ht : IsLine t) (htc : clean t = ['\n'])
    (n : Nat) (hn : (bs.flatten ++ (l ++ ls.flatten) ++ t ++ r).length + 1 ≤ n) :
    readLoop n none false [] (bs.flatten ++ (l ++ ls.flatten) ++ t ++ r) = (clean l :: ls.map clean, r) := by
  have hp := hl.pos
  have hpt := ht.pos
  have e : bs.flatten ++ (l ++ ls.flatten) ++ t ++ r = bs.flatten ++ (l ++ (ls.flatten ++ (t ++ r))) := by simp
  simp only [List.length_append] at hn
  obtain ⟨f1, h1, h2⟩ := skip_blank bs n (l ++ (ls.flatten ++ (t ++ r))) hb (by omega)
  obtain ⟨f1, rfl⟩ : ∃ k, f1 = k + 1 := ⟨f1 - 1, by omega⟩
  obtain ⟨f2, h3, h4⟩ := collect ls f1 [clean l] (t ++ r) hls (by omega)
  obtain ⟨f2, rfl⟩ : ∃ k, f2 = k + 1 := ⟨f2 - 1, by omega⟩
  rw [e, h2, first_line hl hlb, h4, readLoop]
  simp [ht.read, clean_eq, htc]

/-- The loop, when the input ends inside a response. -/
theorem readLoop_truncated {bs ls : List Str} {l z : Str} (hb : ∀ b ∈ bs, IsLine b ∧ Blank b)
    (hl : IsLine l) (hlb : ¬ Blank l) (hls : ∀ x ∈ ls, IsLine x ∧ clean x ≠ ['\n']) (hz : '\n' ∉ z)
    (n : Nat) (hn : (bs.flatten ++ (l ++ ls.flatten) ++ z).length + 1 ≤ n) :
    readLoop n none false [] (bs.flatten ++ (l ++ ls.flatten) ++ z) = (clean l :: (ls.map clean ++ [clean z]), []) := by
  have hp := hl.pos
  have e : bs.flatten ++ (l ++ ls.flatten) ++ z = bs.flatten ++ (l ++ (ls.flatten ++ z)) := by simp
  simp only [List.length_append] at hn
  obtain ⟨f1, h1, h2⟩ := skip_blank bs n (l ++ (ls.flatten ++ z)) hb (by omega)
  obtain ⟨f1, rfl⟩ : ∃ k, f1 = k + 1 := ⟨f1 - 1, by omega⟩
  obtain ⟨f2, h3, h4⟩ := collect ls f1 [clean l] z hls (by omega)
  obtain ⟨f2, rfl⟩ : ∃ k, f2 = k + 1 := ⟨f2 - 1, by omega⟩
  have hnz : clean z ≠ ['\n'] := by intro h; have := not_endsNl hz; rw [h] at this; revert this; decide
  rw [e, h2, first_line hl hlb, h4, readLoop]
  simp [readLine_none hz, clean_eq, not_endsNl hz, hnz]

/-! ### C60 -/

/-- A response ended by an empty line: blank lines before it are ignored, control characters are discarded, and the rest of
the engine's output is left to be read. -/
theorem C60_response (bs ls : List Str) (l t rest : Str) (hb : ∀ b ∈ bs, IsLine b ∧ Blank b)
    (hl : IsLine l) (hlb : ¬ Blank l) (hls : ∀ x ∈ ls, IsLine x ∧ clean x ≠ ['\n']) (ht : IsLine t) (htc : clean t = ['\n']) :
    ∃ out, getResponse false (bs.flatten ++ (l ++ ls.flatten) ++ t ++ rest) = (out, rest) ∧
      Means (clean (l ++ ls.flatten)) out := by
  refine ⟨interpretLines (clean l :: ls.map clean), ?_, ?_⟩
  · unfold getResponse
    simp only [Bool.false_eq_true, if_false]
    rw [readLoop_response hb hl hlb hls ht htc _ (Nat.le_refl _)]
  · have := means_interpret (l := clean l) (ls := ls.map clean) (by intro h; have := hl.nl_mem; rw [h] at this; simp at this)
      (Or.inl hl.nl_mem)
    rwa [List.flatten_cons, clean_flatten, ← clean_append] at this

/-- If the engine closes the channel inside a response, what it sent is taken for the whole response. -/
theorem C60_truncated (bs ls : List Str) (l z : Str) (hb : ∀ b ∈ bs, IsLine b ∧ Blank b)
    (hl : IsLine l) (hlb : ¬ Blank l) (hls : ∀ x ∈ ls, IsLine x ∧ clean x ≠ ['\n']) (hz : '\n' ∉ z) :
    ∃ out, getResponse false (bs.flatten ++ (l ++ ls.flatten) ++ z) = (out, []) ∧
      Means (clean (l ++ ls.flatten ++ z)) out := by
  refine ⟨interpretLines (clean l :: (ls.map clean ++ [clean z])), ?_, ?_⟩
  · unfold getResponse
    simp only [Bool.false_eq_true, if_false]
    rw [readLoop_truncated hb hl hlb hls hz _ (Nat.le_refl _)]
  · have := means_interpret (l := clean l) (ls := ls.map clean ++ [clean z])
      (by intro h; have := hl.nl_mem; rw [h] at this; simp at this) (Or.inl hl.nl_mem)
    rw [List.flatten_cons, List.flatten_append, clean_flatten, ← List.append_assoc, ← clean_append] at this
    simpa [clean_append] using this

/-- The same, when the response hasn't even one complete line. -/
theorem C60_truncated_line (bs : List Str) (z : Str) (hb : ∀ b ∈ bs, IsLine b ∧ Blank b) (hz : '\n' ∉ z) (hzb : ¬ Blank z) :
    ∃ out, getResponse false (bs.flatten ++ z) = (out, []) ∧ Means (clean z) out := by
  refine ⟨interpretLines [clean z], ?_, ?_⟩
  · unfold getResponse
    simp only [Bool.false_eq_true, if_false]
    obtain ⟨f1, h1, h2⟩ := skip_blank bs ((bs.flatten ++ z).length + 1) z hb (by simp; omega)
    simp only [List.length_append] at h1
    obtain ⟨f1, rfl⟩ : ∃ k, f1 = k + 1 := ⟨f1 - 1, by omega⟩
    have hs : strip (clean z) ≠ [] := fun h => hzb ((strip_nil_iff _).mp h)
    have hnz : clean z ≠ ['\n'] := by intro h; have := not_endsNl hz; rw [h] at this; revert this; decide
    have hread : readLoop ((bs.flatten ++ z).length + 1) none false [] (bs.flatten ++ z) = ([clean z], []) := by
      rw [h2, readLoop]
      simp [readLine_none hz, clean_eq, not_endsNl hz, hnz, hs]
    rw [hread]
  · have := means_interpret (l := clean z) (ls := [])
      (by intro h; apply hzb; intro c hc; rw [h] at hc; simp at hc) (Or.inr rfl)
    simpa using this

/-- If the engine sends nothing but whitespace and closes the channel, that's reported. -/
theorem C60_closed (bs : List Str) (z : Str) (hb : ∀ b ∈ bs, IsLine b ∧ Blank b) (hz : '\n' ∉ z) (hzb : Blank z) :
    getResponse false (bs.flatten ++ z) = (.error .closed, []) := by
  unfold getResponse
  simp only [Bool.false_eq_true, if_false]
  obtain ⟨f1, h1, h2⟩ := skip_blank bs ((bs.flatten ++ z).length + 1) z hb (by simp; omega)
  simp only [List.length_append] at h1
  obtain ⟨f1, rfl⟩ : ∃ k, f1 = k + 1 := ⟨f1 - 1, by omega⟩
  have hs : strip (clean z) = [] := (strip_nil_iff _).mpr hzb
  have hread : readLoop ((bs.flatten ++ z).length + 1) none false [] (bs.flatten ++ z) = ([], []) := by
    rw [h2, readLoop]
    simp [readLine_none hz, clean_eq, not_endsNl hz, hs]
  rw [hread]; rfl

theorem split_lines (s : Str) : ∃ (ls : List Str) (z : Str), s = ls.flatten ++ z ∧ (∀ l ∈ ls, IsLine l) ∧ '\n' ∉ z := by
  induction hn : s.length using Nat.strongRecOn generalizing s with
  | ind n ih =>
    rcases split_nl s with h | ⟨l, r, rfl, hno⟩
    · exact ⟨[], s, by simp, by simp, h⟩
    · obtain ⟨ls, z, h1, h2, h3⟩ := ih r.length (by simp at hn; omega) r rfl
      refine ⟨(l ++ ['\n']) :: ls, z, by rw [h1]; simp, ?_, h3⟩
      intro x hx
      rcases List.mem_cons.mp hx with rfl | hx
      · exact ⟨l, hno, rfl⟩
      · exact h2 x hx

theorem split_while (P : Str → Prop) (ls : List Str) :
    ∃ bs rs, ls = bs ++ rs ∧ (∀ b ∈ bs, P b) ∧ (rs = [] ∨ ∃ r rs', rs = r :: rs' ∧ ¬ P r) := by
  induction ls with
  | nil => exact ⟨[], [], rfl, by simp, Or.inl rfl⟩
  | cons l ls ih =>
    by_cases h : P l
    · obtain ⟨bs, rs, rfl, h2, h3⟩ := ih
      refine ⟨l :: bs, rs, rfl, ?_, h3⟩
      intro b hb
      rcases List.mem_cons.mp hb with rfl | hb
      · exact h
      · exact h2 b hb
    · exact ⟨[], l :: ls, rfl, by simp, Or.inr ⟨l, ls, rfl, h⟩⟩

/-- Whatever the engine sends, one of C60_response, C60_truncated, C60_truncated_line and C60_closed applies. -/
theorem C60_total (inp : Str) :
    (∃ (bs : List Str) (l : Str) (ls : List Str) (t rest : Str), inp = bs.flatten ++ (l ++ ls.flatten) ++ t ++ rest ∧
      (∀ b ∈ bs, IsLine b ∧ Blank b) ∧ IsLine l ∧ ¬ Blank l ∧ (∀ x ∈ ls, IsLine x ∧ clean x ≠ ['\n']) ∧ IsLine t ∧ clean t = ['\n']) ∨
    (∃ (bs : List Str) (l : Str) (ls : List Str) (z : Str), inp = bs.flatten ++ (l ++ ls.flatten) ++ z ∧
      (∀ b ∈ bs, IsLine b ∧ Blank b) ∧ IsLine l ∧ ¬ Blank l ∧ (∀ x ∈ ls, IsLine x ∧ clean x ≠ ['\n']) ∧ '\n' ∉ z) ∨
    (∃ (bs : List Str) (z : Str), inp = bs.flatten ++ z ∧ (∀ b ∈ bs, IsLine b ∧ Blank b) ∧ '\n' ∉ z) := by
  obtain ⟨ls, z, rfl, hls, hz⟩ := split_lines inp
  obtain ⟨bs, rs, rfl, hbs, hrs⟩ := split_while Blank ls
  have hb : ∀ b ∈ bs, IsLine b ∧ Blank b := fun b h => ⟨hls b (by simp [h]), hbs b h⟩
  rcases hrs with rfl | ⟨l, rs, rfl, hl⟩
  · exact Or.inr (Or.inr ⟨bs, z, by simp, hb, hz⟩)
  · obtain ⟨xs, ys, rfl, hxs, hys⟩ := split_while (fun x => clean x ≠ ['\n']) rs
    have hx : ∀ x ∈ xs, IsLine x ∧ clean x ≠ ['\n'] := fun x h => ⟨hls x (by simp [h]), hxs x h⟩
    have hll : IsLine l := hls l (by simp)
    rcases hys with rfl | ⟨t, ys, rfl, ht⟩
    · exact Or.inr (Or.inl ⟨bs, l, xs, z, by simp, hb, hll, hl, hx, hz⟩)
    · exact Or.inl ⟨bs, l, xs, t, ys.flatten ++ z, by simp, hb, hll, hl, hx, hls t (by simp), by simpa using ht⟩

/-- The first response of a channel which can read a single byte: if that byte can't begin a response, nothing more is read
and it's a protocol error; otherwise the response is read as any other. -/
theorem C60_first (inp : Str) :
    (inp = [] ∧ getResponse true inp = (.error .closed, [])) ∨
    (∃ b rest, inp = b :: rest ∧ (b = ' ' ∨ b = '\t' ∨ b = '\r' ∨ b = '\n' ∨ b = '#' ∨ b = '=' ∨ b = '?') ∧
      getResponse true inp = getResponse false inp) ∨
    (∃ b rest, inp = b :: rest ∧ ¬ (b = ' ' ∨ b = '\t' ∨ b = '\r' ∨ b = '\n' ∨ b = '#' ∨ b = '=' ∨ b = '?') ∧
      getResponse true inp = (.error .protocol, rest)) := by
  cases inp with
  | nil => exact Or.inl ⟨rfl, rfl⟩
  | cons b rest =>
    right
    by_cases hb : b = ' ' ∨ b = '\t' ∨ b = '\r' ∨ b = '\n' ∨ b = '#' ∨ b = '=' ∨ b = '?'
    · refine Or.inl ⟨b, rest, rfl, hb, ?_⟩
      have hm : ¬ b ∉ [' ', '\t', '\r', '\n', '#', '=', '?'] := not_not.mpr (by simpa using hb)
      unfold getResponse
      simp only [if_true, if_neg hm, Bool.false_eq_true, if_false, List.length_cons]
      by_cases hn : b = '\n'
      · subst hn
        simp only [if_true]
        have : readLoop (rest.length + 1 + 1) none false [] ('\n' :: rest) = readLoop (rest.length + 1) none false [] rest := by
          rw [readLoop]
          have h1 : readLine ('\n' :: rest) = (['\n'], rest) := by simp [readLine]
          have h2 : strip ['\n'] = [] := by decide
          have h3 : endsNl ['\n'] = true := by decide
          simp [h1, clean_eq, clean_nl, h2, h3]
        rw [this]
        have : ∀ s : Str, readLoop (s.length + 2) none false [] s = readLoop (s.length + 1) none false [] s := by
          intro s
          rcases C60_total s with ⟨bs, l, ls, t, r, rfl, hb, hl, hlb, hls, ht, htc⟩ | ⟨bs, l, ls, z, rfl, hb, hl, hlb, hls, hz⟩ | ⟨bs, z, rfl, hb, hz⟩
          · rw [readLoop_response hb hl hlb hls ht htc _ (by omega), readLoop_response hb hl hlb hls ht htc _ (Nat.le_refl _)]
          · rw [readLoop_truncated hb hl hlb hls hz _ (by omega), readLoop_truncated hb hl hlb hls hz _ (Nat.le_refl _)]
          · have hlen : ∀ n, (bs.flatten ++ z).length + 1 ≤ n → ∃ f, readLoop n none false [] (bs.flatten ++ z) = readLoop (f + 1) none false [] z := by
              intro n hn
              simp only [List.length_append] at hn
              obtain ⟨f1, h1, h2⟩ := skip_blank bs n z hb (by omega)
              obtain ⟨f1, rfl⟩ : ∃ k, f1 = k + 1 := ⟨f1 - 1, by omega⟩
              exact ⟨f1, h2⟩
            obtain ⟨f, h1⟩ := hlen ((bs.flatten ++ z).length + 2) (by omega)
            obtain ⟨g, h2⟩ := hlen ((bs.flatten ++ z).length + 1) (by omega)
            have hz1 : ∀ f, readLoop (f + 1) none false [] z = readLoop 1 none false [] z := by
              intro f
              rw [readLoop, readLoop]
              simp [readLine_none hz, clean_eq, not_endsNl hz]
            rw [h1, h2, hz1 f, hz1 g]
        rw [this]
      · rw [if_neg hn]
        have hpk : ∀ fuel r, readLoop (fuel + 1) (some b) false [] r = readLoop (fuel + 1) none false [] (b :: r) := by
          intro fuel r
          rw [readLoop.eq_def, readLoop.eq_def]
          simp [readLine, hn]
        rw [hpk]
    · refine Or.inr ⟨b, rest, rfl, hb, ?_⟩
      have hm : b ∉ [' ', '\t', '\r', '\n', '#', '=', '?'] := by simpa using hb
      unfold getResponse
      simp only [if_true, if_pos hm]

/-- What is promised of a response: no control characters (so no tabs), no leading space or tab, no trailing whitespace, and
no empty line except perhaps the first. -/
structure Tidy (t : Str) : Prop where
  noControl : ∀ c ∈ t, ¬ IsControl c ∧ c ≠ '\t'
  head : t.head? ≠ some ' '
  last : ∀ c, t.getLast? = some c → isSpace c = false
  noEmpty : ¬ "\n\n".toList <:+: t

theorem noEmpty_lines (ls : List Str) (h : ∀ x ∈ ls, IsLine x ∧ clean x ≠ ['\n']) :
    ¬ "\n\n".toList <:+: (ls.map clean).flatten ∧ (ls.map clean).flatten.head? ≠ some '\n' := by
  induction ls with
  | nil => exact ⟨by simp, by simp⟩
  | cons x ls ih =>
    obtain ⟨h1, h2⟩ := ih (fun y hy => h y (by simp [hy]))
    obtain ⟨⟨t, ht, rfl⟩, hx⟩ := h x (by simp)
    rw [clean_append, clean_nl] at hx
    have hct : '\n' ∉ clean t := fun hc => ht (mem_clean hc).1
    have hne : clean t ≠ [] := by intro h0; rw [h0] at hx; simp at hx
    rw [List.map_cons, List.flatten_cons, clean_append, clean_nl]
    constructor
    · rw [List.append_assoc, nn_append]
      rintro (h0 | h0 | h0)
      · exact hct (h0.subset (by simp))
      · rw [nn_append] at h0
        rcases h0 with h0 | h0 | h0
        · revert h0; decide
        · exact h1 h0
        · exact h2 h0.2
      · exact hct (List.mem_of_getLast? h0.1)
    · cases hq : clean t with
      | nil => exact absurd hq hne
      | cons c r => rw [hq] at hct; simp at hct ⊢; exact fun h0 => hct.1 h0.symm

theorem noEmpty_response {ls : List Str} {l z : Str} (hl : IsLine l) (hlb : ¬ Blank l)
    (hls : ∀ x ∈ ls, IsLine x ∧ clean x ≠ ['\n']) (hz : '\n' ∉ z) : ¬ "\n\n".toList <:+: clean (l ++ ls.flatten ++ z) := by
  have hlc : clean l ≠ ['\n'] := by
    intro h
    apply hlb
    intro c hc; rw [h] at hc; simp at hc; subst hc; decide
  have h1 := (noEmpty_lines (l :: ls) (by
    intro x hx
    rcases List.mem_cons.mp hx with rfl | hx
    · exact ⟨hl, hlc⟩
    · exact hls x hx)).1
  rw [clean_flatten, List.flatten_cons] at h1
  rw [clean_append, nn_append]
  have hcz : '\n' ∉ clean z := fun h => hz (mem_clean h).1
  rintro (h0 | h0 | h0)
  · exact h1 h0
  · exact hcz (h0.subset (by simp))
  · exact hcz (List.mem_of_head? h0.2)

theorem tidy_of_isText {s t : Str} (h : IsText s t) (hc : ∀ c ∈ s, ¬ IsControl c) (hn : ¬ "\n\n".toList <:+: s) : Tidy t := by
  obtain ⟨lead, mid, trail, rfl, h1, h2, h3, h4, rfl⟩ := h
  have hmid : ∀ c ∈ mid, ¬ IsControl c := fun c h => hc c (by simp [h])
  refine ⟨?_, ?_, ?_, ?_⟩
  · intro c hcm
    obtain ⟨d, hd, rfl⟩ := List.mem_map.mp hcm
    split
    · exact ⟨by unfold IsControl; decide, by decide⟩
    · rename_i hne; exact ⟨hmid d hd, hne⟩
  · rw [List.head?_map]
    cases hq : mid.head? with
    | none => simp
    | some c => have := h3 c hq; simp [this.1, this.2]
  · intro c hcl
    rw [List.getLast?_map] at hcl
    cases hq : mid.getLast? with
    | none => rw [hq] at hcl; simp at hcl
    | some d =>
      rw [hq] at hcl
      have hd := h4 d hq
      simp at hcl
      split at hcl
      · rename_i h0; subst h0; exact absurd hd (by decide)
      · rw [← hcl]; exact hd
  · have : (fun c => if c = '\t' then ' ' else c) = untab := rfl
    rw [this, nn_map_untab]
    intro h0
    exact hn (h0.trans ⟨lead, trail, rfl⟩)

theorem tidy_of_means {s t : Str} {f : Bool} (h : Means (clean s) (.ok (f, t))) (hn : ¬ "\n\n".toList <:+: clean s) : Tidy t := by
  have key : ∀ c r, clean s = c :: r → IsText r t → Tidy t := by
    intro c r hcr ht
    refine tidy_of_isText ht (fun d hd => (mem_clean (s := s) (by rw [hcr]; simp [hd])).2) ?_
    intro h0
    apply hn
    rw [hcr]; exact h0.trans ⟨[c], [], by simp⟩
  rcases h with ⟨r, t', h1, h2, h3⟩ | ⟨r, t', h1, h2, h3⟩ | ⟨_, _, h3⟩
  · simp at h3; exact key _ _ h1 (h3.2 ▸ h2)
  · simp at h3; exact key _ _ h1 (h3.2 ▸ h2)
  · cases h3

/-- Whatever the engine sends, a response the controller accepts is tidy. -/
theorem C60_tidy (first : Bool) (inp : Str) (f : Bool) (t rest : Str) (h : getResponse first inp = (.ok (f, t), rest)) :
    Tidy t := by
  have key : getResponse false inp = (.ok (f, t), rest) → Tidy t := by
    intro h
    rcases C60_total inp with ⟨bs, l, ls, t', r, rfl, hb, hl, hlb, hls, ht, htc⟩ | ⟨bs, l, ls, z, rfl, hb, hl, hlb, hls, hz⟩ | ⟨bs, z, rfl, hb, hz⟩
    · obtain ⟨out, h1, h2⟩ := C60_response bs ls l t' r hb hl hlb hls ht htc
      rw [h1] at h; simp at h
      rw [h.1] at h2
      exact tidy_of_means h2 (by have := noEmpty_response (z := []) hl hlb hls (by simp); simpa using this)
    · obtain ⟨out, h1, h2⟩ := C60_truncated bs ls l z hb hl hlb hls hz
      rw [h1] at h; simp at h
      rw [h.1] at h2
      exact tidy_of_means h2 (noEmpty_response hl hlb hls hz)
    · by_cases hzb : Blank z
      · rw [C60_closed bs z hb hz hzb] at h; simp at h
      · obtain ⟨out, h1, h2⟩ := C60_truncated_line bs z hb hz hzb
        rw [h1] at h; simp at h
        rw [h.1] at h2
        exact tidy_of_means h2 (fun h0 => hz (mem_clean (h0.subset (by simp))).1)
  cases first with
  | false => exact key h
  | true =>
    rcases C60_first inp with ⟨_, h1⟩ | ⟨_, _, _, _, h1⟩ | ⟨_, _, _, _, h1⟩
    · rw [h1] at h; simp at h
    · exact key (h1 ▸ h)
    · rw [h1] at h; simp at h

/-- Reading always makes progress through the engine's output: what's left is an end part of what there was, and shorter
unless there was nothing. -/
theorem C60_progress (first : Bool) (inp : Str) : ∃ p, inp = p ++ (getResponse first inp).2 ∧ (inp ≠ [] → p ≠ []) := by
  have key : ∃ p, inp = p ++ (getResponse false inp).2 ∧ (inp ≠ [] → p ≠ []) := by
    rcases C60_total inp with ⟨bs, l, ls, t', r, rfl, hb, hl, hlb, hls, ht, htc⟩ | ⟨bs, l, ls, z, rfl, hb, hl, hlb, hls, hz⟩ | ⟨bs, z, rfl, hb, hz⟩
    · obtain ⟨out, h1, h2⟩ := C60_response bs ls l t' r hb hl hlb hls ht htc
      rw [h1]
      refine ⟨_, rfl, fun _ h => ?_⟩
      have := congrArg List.length h
      have hp := hl.pos
      simp only [List.length_append, List.length_nil] at this; omega
    · obtain ⟨out, h1, h2⟩ := C60_truncated bs ls l z hb hl hlb hls hz
      rw [h1]; exact ⟨_, (List.append_nil _).symm, id⟩
    · by_cases hzb : Blank z
      · rw [C60_closed bs z hb hz hzb]; exact ⟨_, (List.append_nil _).symm, id⟩
      · obtain ⟨out, h1, h2⟩ := C60_truncated_line bs z hb hz hzb
        rw [h1]; exact ⟨_, (List.append_nil _).symm, id⟩
  cases first with
  | false => exact key
  | true =>
    rcases C60_first inp with ⟨h0, h1⟩ | ⟨_, _, _, _, h1⟩ | ⟨b, r, h0, _, h1⟩
    · rw [h1, h0]; exact ⟨[], rfl, fun h => absurd rfl h⟩
    · rw [h1]; exact key
    · rw [h1, h0]; exact ⟨[b], rfl, fun _ => by simp⟩

/-- A stream with noise before the response, a carriage return at the end of each line, an inner line of spaces (which isn't
empty), and a second response. -/
theorem C60_witness :
    getResponse true "\r\n \t\r\n=\t a\tb\r\n  \r\nc \r\n\r\n? no\n\n".toList = (.ok (false, "a b\n  \nc".toList), "? no\n\n".toList) ∧
    getResponse false "? no\n\n".toList = (.ok (true, "no".toList), []) ∧
    getResponse true "= a\nb".toList = (.ok (false, "a\nb".toList), []) ∧
    getResponse false " \n\t".toList = (.error .closed, []) ∧
    getResponse false " =\n\n".toList = (.error .protocol, []) := by
  refine ⟨?_, ?_, ?_, ?_, ?_⟩ <;> decide

end Gomill.Gtp
