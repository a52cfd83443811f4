import Verif.Lemmas.GtpChannel
import Verif.Lemmas.Py
/-
C32: responses of a GTP engine.  C33: they are read back by a controller.  C44: commands sent by a controller arrive.
-/
namespace Gomill.Gtp
open Py Spec

/-! ## C32 -/

def respond (e : Engine) (i : Option Str) (c : Str) (args : List Str) : Except Exc (Option Str × Bool) :=
  .ok (some (responseText (e.runCommand c args).1 i (e.runCommand c args).2.1), (e.runCommand c args).2.2)

def respondTo (e : Engine) (w : Str) (ws : List Str) : Except Exc (Option Str × Bool) :=
  match matchCommandId w with
  | some m =>
    if w.drop m.length = [] then (match ws with
      | [] => .ok (none, false)
      | c :: args => respond e (clipId m) c args)
    else respond e (clipId m) (w.drop m.length) ws
  | none => respond e none w ws

theorem handleLine_words (e : Engine) {line : Str} {w : Str} {ws : List Str} (h : IsWords (significant line) (w :: ws)) :
    e.handleLine line = respondTo e w ws := by
  have hw := h.eq_splitWs
  have hne : ¬ (preprocessLine line = [] ∨ preprocessLine line = [' ']) := by rw [preprocess_blank, hw]; simp
  have hfmt : ∀ (b : Bool) (i : Option Str) (t : Str),
      ((if b then '?' else '=') :: (i.getD [] ++ (if t = [] then [] else [' ']) ++ t ++ ['\n', '\n'])) = responseText b i t := by
    intro b i t
    unfold responseText
    by_cases ht : t = [] <;> simp [ht]
  unfold Engine.handleLine respondTo respond
  simp only [if_neg hne, parseLine, splitWs_preprocess, hw]
  cases hm : matchCommandId w with
  | none => simp only [hfmt]
  | some m =>
    simp only
    by_cases hd : w.drop m.length = []
    · simp only [hd, if_true]
      cases ws with
      | nil => rfl
      | cons c args => simp only [List.head?_cons, List.drop_succ_cons, List.drop_zero, hfmt]
    · simp only [hd, if_false, hfmt]

/-- C32: handling a line never fails. -/
theorem C32_total (e : Engine) (line : Str) : ∃ r, e.handleLine line = .ok r := by
  cases hq : splitWs (significant line) with
  | nil =>
    refine ⟨(none, false), ?_⟩
    unfold Engine.handleLine
    simp only [if_pos (preprocess_blank.mpr hq)]
  | cons w ws =>
    have h := isWords_splitWs (significant line)
    rw [hq] at h
    rw [handleLine_words e h]
    unfold respondTo respond
    split
    · split
      · split <;> exact ⟨_, rfl⟩
      · exact ⟨_, rfl⟩
    · exact ⟨_, rfl⟩

/-- C32: every line has a definite list of words, so that the following theorems cover all lines. -/
theorem C32_words (line : Str) : ∃ ws, IsWords (significant line) ws ∧ ∀ ws', IsWords (significant line) ws' → ws' = ws :=
  ⟨_, isWords_splitWs _, fun _ h => h.eq_splitWs.symm⟩

/-- C32: nothing is sent for a line with no words (blank, or only a comment). -/
theorem C32_blank (e : Engine) {line : Str} (h : IsWords (significant line) []) : e.handleLine line = .ok (none, false) := by
  unfold Engine.handleLine
  simp only [if_pos (preprocess_blank.mpr h.eq_splitWs)]

/-- C32: nothing is sent for a line with only a command id. -/
theorem C32_id_only (e : Engine) {line i : Str} (hi : IsId i) (h : IsWords (significant line) [i]) :
    e.handleLine line = .ok (none, false) := by
  have := matchCommandId_of_isId (c := []) hi (by simp)
  rw [List.append_nil] at this
  rw [handleLine_words e h, respondTo, this]
  simp

/-- C32: a command without an id. -/
theorem C32_plain (e : Engine) {line c : Str} {args : List Str} (h : IsWords (significant line) (c :: args))
    (hc : ¬ StartsWithId c) : ∃ isError text fin, e.runCommand c args = (isError, text, fin) ∧
      e.handleLine line = .ok (some (responseText isError none text), fin) := by
  refine ⟨_, _, _, rfl, ?_⟩
  rw [handleLine_words e h, respondTo, matchCommandId_none.mpr hc]
  rfl

/-- C32: a command with an id before it. -/
theorem C32_id_separate (e : Engine) {line i c : Str} {args : List Str} (hi : IsId i)
    (h : IsWords (significant line) (i :: c :: args)) :
    ∃ isError text fin out, e.runCommand c args = (isError, text, fin) ∧ ReportedId i out ∧
      e.handleLine line = .ok (some (responseText isError out text), fin) := by
  refine ⟨_, _, _, _, rfl, clipId_reported hi, ?_⟩
  have := matchCommandId_of_isId (c := []) hi (by simp)
  rw [List.append_nil] at this
  rw [handleLine_words e h, respondTo, this]
  simp only [List.drop_length, if_true]
  rfl

/-- C32: a command with an id attached to it. -/
theorem C32_id_attached (e : Engine) {line i c : Str} {args : List Str} (hi : IsId i) (hc : c ≠ [])
    (hd : ∀ x, c.head? = some x → x.isDigit = false) (h : IsWords (significant line) ((i ++ c) :: args)) :
    ∃ isError text fin out, e.runCommand c args = (isError, text, fin) ∧ ReportedId i out ∧
      e.handleLine line = .ok (some (responseText isError out text), fin) := by
  refine ⟨_, _, _, _, rfl, clipId_reported hi, ?_⟩
  rw [handleLine_words e h, respondTo, matchCommandId_of_isId hi hd]
  simp only [List.drop_left, if_neg hc]
  rfl

/-- C32: the words of a nonblank line fall under exactly one of the above theorems. -/
theorem C32_cases (w : Str) : ¬ StartsWithId w ∨ IsId w ∨
    ∃ i c, w = i ++ c ∧ IsId i ∧ c ≠ [] ∧ ∀ x, c.head? = some x → x.isDigit = false := by
  by_cases h : StartsWithId w
  · right
    obtain ⟨i, c, ⟨ds, hne, hd, hi⟩, rfl⟩ := h
    let ds' := ds ++ c.takeWhile Char.isDigit
    let r := c.dropWhile Char.isDigit
    have hds' : ds' ≠ [] := by simp [ds', hne]
    have hdig : ∀ x ∈ ds', x.isDigit = true := by
      intro x hx
      rcases List.mem_append.mp hx with h | h
      · exact hd x h
      · exact List.mem_takeWhile_imp h
    have hc : c = c.takeWhile Char.isDigit ++ r := (List.takeWhile_append_dropWhile).symm
    have hr : ∀ x, r.head? = some x → x.isDigit = false := by
      intro x hx
      have := List.head?_dropWhile_not Char.isDigit c
      rw [show (c.dropWhile Char.isDigit).head? = some x from hx] at this
      exact this
    have hex : ∃ i', IsId i' ∧ i ++ c = i' ++ r := by
      rcases hi with rfl | rfl
      · exact ⟨_, ⟨ds', hds', hdig, Or.inl rfl⟩, by conv => { lhs; rw [hc] }; simp [ds']⟩
      · exact ⟨_, ⟨ds', hds', hdig, Or.inr rfl⟩, by conv => { lhs; rw [hc] }; simp [ds']⟩
    obtain ⟨i', hi', heq⟩ := hex
    by_cases h0 : r = []
    · left; rw [heq, h0, List.append_nil]; exact hi'
    · right; exact ⟨i', r, heq, hi', h0, hr⟩
  · exact Or.inl h

/-- C32: exactly the blank, comment and id-only lines get no response. -/
theorem C32_no_response_iff (e : Engine) (line : Str) : (∃ fin, e.handleLine line = .ok (none, fin)) ↔
    (IsWords (significant line) [] ∨ ∃ i, IsId i ∧ IsWords (significant line) [i]) := by
  constructor
  · rintro ⟨fin, h⟩
    cases hq : splitWs (significant line) with
    | nil => left; have := isWords_splitWs (significant line); rwa [hq] at this
    | cons w ws =>
      right
      have hw := isWords_splitWs (significant line)
      rw [hq] at hw
      rcases C32_cases w with h1 | h1 | ⟨i, c, rfl, h1, h2, h3⟩
      · obtain ⟨_, _, _, _, h4⟩ := C32_plain e hw h1
        rw [h4] at h; simp at h
      · cases ws with
        | nil => exact ⟨w, h1, hw⟩
        | cons c args =>
          obtain ⟨_, _, _, _, _, _, h4⟩ := C32_id_separate e h1 hw
          rw [h4] at h; simp at h
      · obtain ⟨_, _, _, _, _, _, h4⟩ := C32_id_attached e h1 h2 h3 hw
        rw [h4] at h; simp at h
  · rintro (h | ⟨i, h1, h2⟩)
    · exact ⟨_, C32_blank e h⟩
    · exact ⟨_, C32_id_only e h1 h2⟩

/-- C32: which status and text a command gets, and whether the session is to end. -/
theorem C32_outcomes (e : Engine) (c : Str) (args : List Str) :
    (e.handlers c = none → e.runCommand c args = (true, "unknown command".toList, false)) ∧
    ∀ h, e.handlers c = some h →
      (∀ r, h args = .value r → e.runCommand c args = (false, cleanResponse r, false)) ∧
      (∀ m, h args = .gtpError m → m ≠ [] → e.runCommand c args = (true, cleanResponse (some m), false)) ∧
      (h args = .gtpError [] → e.runCommand c args = (true, "unspecified error".toList, false)) ∧
      (∀ m, h args = .gtpFatalError m → m ≠ [] → e.runCommand c args = (true, cleanResponse (some m), true)) ∧
      (h args = .gtpFatalError [] → e.runCommand c args = (true, "unspecified fatal error".toList, true)) ∧
      (∀ m, h args = .gtpQuit m → e.runCommand c args = (false, cleanResponse (some m), true)) ∧
      (∀ tb, h args = .exception tb → e.runCommand c args =
        if e.exceptionsFatal then (true, cleanResponse (some ("internal error; exiting\n".toList ++ tb)), true)
        else (true, cleanResponse (some ("internal error\n".toList ++ tb)), false)) := by
  refine ⟨?_, ?_⟩
  · intro h; simp only [Engine.runCommand, Engine.doCommand, h]; decide
  · intro h hh
    refine ⟨?_, ?_, ?_, ?_, ?_, ?_, ?_⟩
    · intro r hr; simp [Engine.runCommand, Engine.doCommand, hh, hr]
    · intro r hr hne; simp [Engine.runCommand, Engine.doCommand, hh, hr, hne]
    · intro hr; simp only [Engine.runCommand, Engine.doCommand, hh, hr]; decide
    · intro r hr hne; simp [Engine.runCommand, Engine.doCommand, hh, hr, hne]
    · intro hr; simp only [Engine.runCommand, Engine.doCommand, hh, hr]; decide
    · intro r hr; simp [Engine.runCommand, Engine.doCommand, hh, hr]
    · intro r hr
      by_cases hf : e.exceptionsFatal = true <;> simp [Engine.runCommand, Engine.doCommand, hh, hr, hf]

/-- C32: whatever a handler returns, the text sent has no tabs, and no control characters but newline. -/
theorem C32_no_controls (e : Engine) (c : Str) (args : List Str) :
    ∀ x ∈ (e.runCommand c args).2.1, ¬ IsControl x ∧ x ≠ '\t' := by
  unfold Engine.runCommand
  split <;> (intro x hx; dsimp only at hx; exact cleanResponse_noControl _ x hx)

/-- The text a handler gives can be framed as a response. -/
def Outcome.Sendable : Outcome → Prop
  | .value none => True
  | .value (some s) => Spec.Sendable s
  | .gtpError m => Spec.Sendable m
  | .gtpFatalError m => Spec.Sendable m
  | .gtpQuit m => Spec.Sendable m
  | .exception tb => Spec.Sendable ('\n' :: tb)

/-- All texts the engine's handlers give can be framed as responses. -/
def Engine.Sendable (e : Engine) : Prop := ∀ c h args, e.handlers c = some h → (h args).Sendable

theorem sendable_prefix {p tb : Str} (hp : ∀ c ∈ p, ¬ IsControl c) (hn : '\n' ∉ p) (h : Spec.Sendable ('\n' :: tb)) :
    Spec.Sendable (p ++ '\n' :: tb) := by
  refine ⟨?_, ?_⟩
  · intro c hc
    rcases List.mem_append.mp hc with hc | hc
    · exact hp c hc
    · exact h.1 c hc
  · intro hq
    have key : ∀ p : Str, '\n' ∉ p → "\n\n\n".toList <:+: p ++ '\n' :: tb → "\n\n\n".toList <:+: '\n' :: tb := by
      intro p
      induction p with
      | nil => intro _ h; exact h
      | cons c p ih =>
        intro hn h
        simp only [List.mem_cons, not_or] at hn
        rw [List.cons_append, List.infix_cons_iff] at h
        rcases h with ⟨t, ht⟩ | h
        · simp at ht; exact absurd ht.1 hn.1
        · exact ih hn.2 h
    exact h.2 (key p hn hq)

theorem sendable_const {s : Str} (h1 : ∀ c ∈ s, ¬ IsControl c) (h2 : '\n' ∉ s) : Spec.Sendable s := by
  refine ⟨h1, fun h => h2 ?_⟩
  exact h.subset (by decide)

instance (c : Char) : Decidable (IsControl c) := by unfold IsControl; infer_instance

theorem good_const {s : Str} (h1 : ∀ c ∈ s, ¬ IsControl c ∧ c ≠ '\t' ∧ c ≠ '\n') (h2 : s.getLast?.all (fun c => !isSpace c) = true) :
    Good s where
  noControl := fun c h => (h1 c h).1
  noTab := fun h => (h1 _ h).2.1 rfl
  noBlank := fun h => (h1 '\n' (h.subset (by decide))).2.2 rfl
  last := fun c h => by rw [h] at h2; simpa using h2

theorem runCommand_good {e : Engine} (h : e.Sendable) (c : Str) (args : List Str) : Good (e.runCommand c args).2.1 := by
  have hc := C32_outcomes e c args
  cases hq : e.handlers c with
  | none => rw [hc.1 hq]; exact good_const (by decide) (by decide)
  | some f =>
    have hs := h c f args hq
    obtain ⟨h1, h2, h3, h4, h5, h6, h7⟩ := hc.2 f hq
    cases hr : f args with
    | value r =>
      rw [h1 r hr]; rw [hr] at hs
      cases r with
      | none => exact good_nil
      | some s => exact good_clean hs
    | gtpError m =>
      rw [hr] at hs
      by_cases hm : m = []
      · subst hm; rw [h3 hr]; exact good_const (by decide) (by decide)
      · rw [h2 m hr hm]; exact good_clean hs
    | gtpFatalError m =>
      rw [hr] at hs
      by_cases hm : m = []
      · subst hm; rw [h5 hr]; exact good_const (by decide) (by decide)
      · rw [h4 m hr hm]; exact good_clean hs
    | gtpQuit m => rw [hr] at hs; rw [h6 m hr]; exact good_clean hs
    | exception tb =>
      rw [hr] at hs
      rw [h7 tb hr]
      split
      · have := sendable_prefix (p := "internal error; exiting".toList) (by decide) (by decide) hs
        have h0 : "internal error; exiting\n".toList ++ tb = "internal error; exiting".toList ++ '\n' :: tb := by simp
        rw [h0]; exact good_clean this
      · have := sendable_prefix (p := "internal error".toList) (by decide) (by decide) hs
        have h0 : "internal error\n".toList ++ tb = "internal error".toList ++ '\n' :: tb := by simp
        rw [h0]; exact good_clean this

theorem responseText_framed {b : Bool} {i : Option Str} {t : Str} (hi : ∀ s, i = some s → '\n' ∉ s) (ht : Good t) :
    Framed (responseText b i t) := by
  have hx : responseText b i t = ((if b then '?' else '=') :: (i.getD [] ++ (if t = [] then [] else ' ' :: t))) ++ "\n\n".toList := by
    simp [responseText]
  rw [hx]
  have hp : '\n' ∉ (if b then '?' else '=') :: i.getD [] := by
    intro h
    rcases List.mem_cons.mp h with h | h
    · cases b <;> simp at h
    · cases i with
      | none => simp at h
      | some s => exact hi s rfl h
  rw [← List.cons_append]
  have hpn : ¬ "\n\n".toList <:+: (if b then '?' else '=') :: i.getD [] := fun h => hp (h.subset (by decide))
  have hpl : ((if b then '?' else '=') :: i.getD []).getLast? ≠ some '\n' := fun h => hp (List.mem_of_getLast? h)
  by_cases h0 : t = []
  · simp only [h0, if_true, List.append_nil]
    exact framed_of hpn hpl
  · simp only [if_neg h0]
    apply framed_of
    · rw [nn_append]
      rintro (h | h | h)
      · exact hpn h
      · rw [List.infix_cons_iff] at h
        rcases h with ⟨t, ht⟩ | h
        · simp at ht
        · exact ht.noBlank h
      · simp at h
    · obtain ⟨e, he⟩ : ∃ e, t.getLast? = some e := by
        cases hq : t.getLast? with
        | none => exact absurd (List.getLast?_eq_none_iff.mp hq) h0
        | some e => exact ⟨e, rfl⟩
      rw [List.getLast?_append, List.getLast?_cons, he]
      have := ht.last e he
      simp; rintro rfl; revert this; decide

theorem Spec.IsId.noNl {i : Str} (h : IsId i) : '\n' ∉ i := by
  obtain ⟨ds, _, hd, rfl | rfl⟩ := h
  · intro h; have := hd _ h; revert this; decide
  · intro h
    rcases List.mem_cons.mp h with h | h
    · revert h; decide
    · have := hd _ h; revert this; decide

/-- C32: if the handlers return text with no control characters (but tabs and newlines) and without two consecutive blank
lines, every response ends with two newlines and has them nowhere else.

Full property: this for any text.  It is false of the code: see `C32_not_framed` and `C32_not_framed_control`. -/
theorem C32_framed_partial (e : Engine) (he : e.Sendable) (line : Str) (resp : Str) (fin : Bool)
    (h : e.handleLine line = .ok (some resp, fin)) : Framed resp := by
  cases hq : splitWs (significant line) with
  | nil =>
    have := isWords_splitWs (significant line)
    rw [hq] at this
    rw [C32_blank e this] at h; simp at h
  | cons w ws =>
    have hw := isWords_splitWs (significant line)
    rw [hq] at hw
    have hrep : ∀ i out, IsId i → ReportedId i out → ∀ s, out = some s → '\n' ∉ s := by
      rintro i out hi ⟨k, _, ⟨_, rfl⟩ | ⟨_, _, rfl⟩ | ⟨_, rfl⟩⟩ s hs
      · simp at hs
      · simp at hs; subst hs; exact hi.noNl
      · simp at hs; subst hs; decide
    have hg : ∀ c args b t f, e.runCommand c args = (b, t, f) → Good t := by
      intro c args b t f hr
      have := runCommand_good he c args
      rw [hr] at this; exact this
    rcases C32_cases w with h1 | h1 | ⟨i, c, rfl, h1, h2, h3⟩
    · obtain ⟨_, _, _, hr, h4⟩ := C32_plain e hw h1
      rw [h4] at h; simp at h
      rw [← h.1]; exact responseText_framed (by simp) (hg _ _ _ _ _ hr)
    · cases ws with
      | nil => rw [C32_id_only e h1 hw] at h; simp at h
      | cons c args =>
        obtain ⟨_, _, _, _, hr, ho, h4⟩ := C32_id_separate e h1 hw
        rw [h4] at h; simp at h
        rw [← h.1]; exact responseText_framed (hrep _ _ h1 ho) (hg _ _ _ _ _ hr)
    · obtain ⟨_, _, _, _, hr, ho, h4⟩ := C32_id_attached e h1 h2 h3 hw
      rw [h4] at h; simp at h
      rw [← h.1]; exact responseText_framed (hrep _ _ h1 ho) (hg _ _ _ _ _ hr)

/-- C32: for text without control characters, the exact condition for the response to contain an early end-of-response
mark: three consecutive newlines before the trailing whitespace. -/
theorem C32_framing_exact {s : Str} (h : ∀ c ∈ s, ¬ IsControl c) :
    "\n\n".toList <:+: cleanResponse (some s) ↔ "\n\n\n".toList <:+: rstrip s := cleanResponse_nn h

def echo (o : Outcome) : Engine := { handlers := fun c => if c = "x".toList then some (fun _ => o) else none, exceptionsFatal := false }

/-- C32 fails of the code: with two consecutive blank lines, only the first is replaced by '.'. -/
theorem C32_not_framed : (echo (.value (some "a\n\n\nb".toList))).handleLine "x".toList =
      .ok (some "= a\n.\n\nb\n\n".toList, false) ∧ ¬ Framed "= a\n.\n\nb\n\n".toList :=
  ⟨by decide, fun h => by have := h.2 "= a\n.".toList "b\n\n".toList (by decide); revert this; decide⟩

/-- C32 fails of the code: blank lines are replaced before control characters are removed. -/
theorem C32_not_framed_control : (echo (.value (some "a\n\r\nb".toList))).handleLine "x".toList =
      .ok (some "= a\n\nb\n\n".toList, false) ∧ ¬ Framed "= a\n\nb\n\n".toList :=
  ⟨by decide, fun h => by have := h.2 "= a".toList "b\n\n".toList (by decide); revert this; decide⟩

-- A line with an id, a comment, tabs and a control character.
example : (echo (.value (some "a\tb\n\nc ".toList))).handleLine "  12\tx \x01 y # z".toList =
    .ok (some "=12 a b\n.\nc\n\n".toList, false) := by decide +kernel
example : (echo (.gtpError [])).handleLine "99999999999x".toList = .ok (some "?2147483647 unspecified error\n\n".toList, false) := by
  decide +kernel
example : (echo (.gtpQuit [])).handleLine "-5 x\n".toList = .ok (some "=\n\n".toList, true) := by decide +kernel
example : (echo (.gtpQuit [])).handleLine "12 # x".toList = .ok (none, false) := by decide +kernel

example (s : Str) (h : s = "a\tb\n\nc ".toList) : Spec.Sendable s := by
  subst h
  refine ⟨by decide +kernel, by decide +kernel⟩

/-! ## C33 -/

/-- The results of calling get_response `n` times on a channel. -/
def getResponses : Nat → Bool → Str → List (Except ChanExc (Bool × Str))
  | 0, _, _ => []
  | n + 1, first, inp => (getResponse first inp).1 :: getResponses n false (getResponse first inp).2

/-- C33: the controller recovers the status and the text of the response, but for blanks at the start; and what follows
the response remains to be read. -/
theorem C33_read (e : Engine) (he : e.Sendable) (line resp : Str) (c : Str) (args : List Str)
    (hw : IsWords (significant line) (c :: args)) (hc : ¬ StartsWithId c) (fin : Bool)
    (h : e.handleLine line = .ok (some resp, fin)) (first : Bool) (rest : Str) :
    getResponse first (resp ++ rest) =
      (.ok ((e.runCommand c args).1, (e.runCommand c args).2.1.dropWhile (fun x => x = ' ')), rest) := by
  obtain ⟨b, t, f, hr, h4⟩ := C32_plain e hw hc
  rw [h4] at h; simp at h
  have hg := runCommand_good he c args
  rw [hr] at hg
  rw [← h.1, hr, getResponse_responseText first b hg rest]
  simp only [Prod.mk.injEq, Except.ok.injEq, and_true, true_and]
  unfold lstripBlank
  have hnt := hg.noTab
  clear hg h4 hr h
  simp only at hnt
  induction t with
  | nil => rfl
  | cons x t ih =>
    simp only [List.mem_cons, not_or] at hnt
    have : isBlank x = decide (x = ' ') := by simp [isBlank, eq_comm]; exact fun h => absurd h.symm hnt.1
    rw [List.dropWhile_cons, List.dropWhile_cons, this, ih hnt.2]

/-- C33: leading whitespace of the handler's text is lost. -/
theorem C33_leading_blank : getResponse true ("=  a\n\n".toList) = (.ok (false, "a".toList), []) := by decide

/-- C33 fails without `Sendable`: the second half of the response is taken for another response. -/
theorem C33_not_sendable : getResponses 2 true "= a\n.\n\n= b\n\n".toList = [.ok (false, "a\n.".toList), .ok (false, "b".toList)] := by
  decide

-- The text read is not always what the handler returned even when it is sendable: a blank line becomes a '.'.
example : getResponses 2 true "=12 a\n.\nb\n\n= \nc\n\n".toList = [.ok (false, "12 a\n.\nb".toList), .ok (false, "\nc".toList)] := by
  decide

/-! ## C44 -/

/-- The words of a command the controller may send, which the engine will see as they are: well-formed, no '#', and the
command doesn't start with what looks like a command id. -/
def Sane (command : Str) (args : List Str) : Prop :=
  (∀ w ∈ command :: args, w ≠ [] ∧ ∀ c ∈ w, ((0x21 ≤ c.toNat ∧ c.toNat ≤ 0x7e) ∨ (0x80 ≤ c.toNat ∧ c.toNat ≤ 0xff)) ∧ c ≠ '#') ∧
  ¬ StartsWithId command

theorem isWordChar_noSpace {c : Char} (h : (0x21 ≤ c.toNat ∧ c.toNat ≤ 0x7e) ∨ (0x80 ≤ c.toNat ∧ c.toNat ≤ 0xff)) :
    isSpace c = false := by
  have ht : c = '\t' ↔ c.toNat = 9 := by rw [← toNat_eq_iff]; rfl
  have hn : c = '\n' ↔ c.toNat = 10 := by rw [← toNat_eq_iff]; rfl
  have hr : c = '\r' ↔ c.toNat = 13 := by rw [← toNat_eq_iff]; rfl
  have hp : c = ' ' ↔ c.toNat = 32 := by rw [← toNat_eq_iff]; rfl
  simp only [isSpace, ht, hn, hr, hp, Bool.or_eq_false_iff, decide_eq_false_iff_not]
  omega

theorem isWords_join {ws : List Str} (h : ∀ w ∈ ws, w ≠ [] ∧ ∀ c ∈ w, isSpace c = false) : IsWords (join [' '] ws) ws := by
  induction ws with
  | nil => exact .nil (by simp [join])
  | cons w ws ih =>
    have hw := h w (by simp)
    have ih := ih (fun x hx => h x (by simp [hx]))
    cases ws with
    | nil =>
      have := IsWords.cons (gap := []) (rest := []) (by simp) hw.1 hw.2 (by simp) (.nil (by simp))
      simpa [join] using this
    | cons v ws =>
      have hstep : IsWords (' ' :: join [' '] (v :: ws)) (v :: ws) := by
        have key : ∀ s l, IsWords s l → IsWords (' ' :: s) l := by
          intro s l hs
          cases hs with
          | nil hg => exact .nil (by intro c hc; rcases List.mem_cons.mp hc with rfl | hc; decide; exact hg c hc)
          | cons hg hne hw hr hrest =>
            rename_i gap w rest ws
            exact .cons (gap := ' ' :: gap) (by intro c hc; rcases List.mem_cons.mp hc with rfl | hc; decide; exact hg c hc) hne hw hr hrest
        exact key _ _ ih
      have := IsWords.cons (gap := []) (rest := ' ' :: join [' '] (v :: ws)) (by simp) hw.1 hw.2
        (by intro c hc; simp at hc; subst hc; decide) hstep
      simpa [join] using this

theorem sendCommand_words {command : Str} {args : List Str} (h : Sane command args) :
    ∃ line, sendCommand command args = .ok line ∧ IsWords (significant line) (command :: args) ∧
      ∃ body, line = body ++ ['\n'] ∧ '\n' ∉ body := by
  have hwf : ∀ w ∈ command :: args, isWellFormedWord w = true := by
    intro w hw
    obtain ⟨h1, h2⟩ := h.1 w hw
    simp only [isWellFormedWord, Bool.and_eq_true, decide_eq_true_eq, List.all_eq_true, isWordChar, Bool.or_eq_true, ne_eq]
    exact ⟨h1, fun c hc => (h2 c hc).1⟩
  have hchars : ∀ c ∈ join [' '] (command :: args), c = ' ' ∨
      (((0x21 ≤ c.toNat ∧ c.toNat ≤ 0x7e) ∨ (0x80 ≤ c.toNat ∧ c.toNat ≤ 0xff)) ∧ c ≠ '#') := by
    intro c hc
    rcases mem_join hc with hc | ⟨w, hw, hc⟩
    · left; simpa using hc
    · right; exact (h.1 w hw).2 c hc
  refine ⟨join [' '] (command :: args) ++ ['\n'], ?_, ?_, _, rfl, ?_⟩
  · unfold sendCommand
    have h2 : args.any (fun a => !isWellFormedWord a) = false := by
      rw [List.any_eq_false]; intro a ha; simp [hwf a (by simp [ha])]
    simp [hwf command (by simp), h2]
  · have hsig : significant (join [' '] (command :: args) ++ ['\n']) = join [' '] (command :: args) := by
      unfold significant
      have htw : (join [' '] (command :: args) ++ ['\n']).takeWhile (· ≠ '#') = join [' '] (command :: args) ++ ['\n'] := by
        rw [List.takeWhile_eq_self_iff]
        intro c hc
        rcases List.mem_append.mp hc with hc | hc
        · rcases hchars c hc with rfl | hc
          · decide
          · simpa using hc.2
        · simp at hc; subst hc; decide
      rw [htw, List.filter_append]
      have h1 : List.filter (fun c => decide (c = '\t') || (decide (32 ≤ c.toNat) && decide (c.toNat ≠ 127))) ['\n'] = [] := by decide
      rw [h1, List.append_nil, List.filter_eq_self]
      intro c hc
      rcases hchars c hc with rfl | ⟨hc, _⟩
      · decide
      · simp only [Bool.or_eq_true, decide_eq_true_eq, Bool.and_eq_true]; omega
    rw [hsig]
    exact isWords_join (fun w hw => ⟨(h.1 w hw).1, fun c hc => isWordChar_noSpace ((h.1 w hw).2 c hc).1⟩)
  · intro hn
    rcases hchars _ hn with hc | ⟨hc, _⟩
    · revert hc; decide
    · revert hc; decide

/-- C44: a command and arguments sent by the controller make the engine run exactly that command with exactly those
arguments. -/
theorem C44_command_arrives (e : Engine) {command : Str} {args : List Str} (h : Sane command args) :
    ∃ line, sendCommand command args = .ok line ∧ ∃ isError text fin, e.runCommand command args = (isError, text, fin) ∧
      e.handleLine line = .ok (some (responseText isError none text), fin) := by
  obtain ⟨line, h1, h2, _⟩ := sendCommand_words h
  exact ⟨line, h1, C32_plain e h2 h.2⟩

/-- C44: what can't be a GTP word is refused: it is never sent. -/
theorem C44_refused (command : Str) (args : List Str) : sendCommand command args = .error .valueError ↔
    ∃ w ∈ command :: args, w = [] ∨ ∃ c ∈ w, ¬ ((0x21 ≤ c.toNat ∧ c.toNat ≤ 0x7e) ∨ (0x80 ≤ c.toNat ∧ c.toNat ≤ 0xff)) := by
  have hwf : ∀ w, isWellFormedWord w = false ↔
      (w = [] ∨ ∃ c ∈ w, ¬ ((0x21 ≤ c.toNat ∧ c.toNat ≤ 0x7e) ∨ (0x80 ≤ c.toNat ∧ c.toNat ≤ 0xff))) := by
    intro w
    rw [← Bool.not_eq_true]
    simp only [isWellFormedWord, Bool.and_eq_true, decide_eq_true_eq, List.all_eq_true, isWordChar, Bool.or_eq_true, ne_eq]
    by_cases hw : w = []
    · simp [hw]
    · simp only [hw, not_false_iff, true_and, false_or]
      constructor
      · intro h; by_contra hx; apply h; intro c hc; by_contra hy; exact hx ⟨c, hc, hy⟩
      · rintro ⟨c, hc, hn⟩ h; exact hn (h c hc)
  unfold sendCommand
  constructor
  · intro h
    split at h
    · rename_i h1; exact ⟨command, by simp, (hwf _).mp (by simpa using h1)⟩
    · split at h
      · rename_i h2
        obtain ⟨a, ha, hb⟩ := List.any_eq_true.mp h2
        exact ⟨a, by simp [ha], (hwf _).mp (by simpa using hb)⟩
      · simp at h
  · rintro ⟨w, hw, hb⟩
    have hb := (hwf w).mpr hb
    rcases List.mem_cons.mp hw with rfl | hw
    · simp [hb]
    · split
      · rfl
      · rw [if_pos (List.any_eq_true.mpr ⟨w, hw, by simp [hb]⟩)]

/-- C44 fails for words the controller accepts but which contain '#': the rest of the line is lost. -/
theorem C44_hash : ∃ line, sendCommand "x".toList ["a#b".toList, "c".toList] = .ok line ∧
    splitWs (preprocessLine line) = ["x".toList, "a".toList] := ⟨_, rfl, by decide⟩

/-- The results of the commands an engine is asked to run, up to and including one which ends the session. -/
def served (es : Nat → Engine) : Nat → List (Str × List Str) → List (Bool × Str)
  | _, [] => []
  | k, (c, args) :: rest =>
    ((es k).runCommand c args).1 |> fun b => (b, ((es k).runCommand c args).2.1) ::
      (if ((es k).runCommand c args).2.2 then [] else served es (k + 1) rest)

/-- C33, C44: a whole session.  The controller sends any commands; the engine (whose handlers may have state) reads them
and replies; the controller, reading as many responses as the engine gave, gets the status and text of each command, in
order; and after that the channel is reported closed. -/
theorem C44_session (es : Nat → Engine) (hes : ∀ k, (es k).Sendable) (cmds : List (Str × List Str))
    (hc : ∀ p ∈ cmds, Sane p.1 p.2) :
    ∃ lines out, cmds.map (fun p => sendCommand p.1 p.2) = lines.map .ok ∧ runSession es 0 lines = .ok out ∧
      ∀ first, getResponses ((served es 0 cmds).length + 1) first out =
        (served es 0 cmds).map (fun r => .ok (r.1, lstripBlank r.2)) ++ [.error .closed] := by
  have key : ∀ (cmds : List (Str × List Str)) (k : Nat), (∀ p ∈ cmds, Sane p.1 p.2) →
      ∃ lines out, cmds.map (fun p => sendCommand p.1 p.2) = lines.map .ok ∧ runSession es k lines = .ok out ∧
      ∀ first, getResponses ((served es k cmds).length + 1) first out =
        (served es k cmds).map (fun r => .ok (r.1, lstripBlank r.2)) ++ [.error .closed] := by
    intro cmds
    induction cmds with
    | nil =>
      intro k _
      refine ⟨[], [], rfl, rfl, ?_⟩
      intro first
      cases first <;> rfl
    | cons p cmds ih =>
      intro k hc
      obtain ⟨c, args⟩ := p
      have hp := hc (c, args) (by simp)
      obtain ⟨line, h1, h2, _⟩ := sendCommand_words hp
      obtain ⟨b, t, f, hr, h4⟩ := C32_plain (es k) h2 hp.2
      obtain ⟨lines, out, h5, h6, h7⟩ := ih (k + 1) (fun p hp => hc p (by simp [hp]))
      have hg := runCommand_good (hes k) c args
      rw [hr] at hg
      refine ⟨line :: lines, responseText b none t ++ (if f then [] else out), ?_, ?_, ?_⟩
      · simp only [List.map_cons, h1, h5]
      · simp only [runSession, h4, h6, Option.getD_some]
        cases f <;> simp
      · intro first
        simp only [served, hr, List.length_cons]
        rw [getResponses, getResponse_responseText first b hg]
        cases f with
        | true => simp; rfl
        | false => simp only [Bool.false_eq_true, if_false]; rw [h7 false]; simp
  exact key cmds 0 hc

-- Non-vacuity: engines whose handlers only give sendable text, and a sane command.
example : (echo (.value (some "a\tb\n\nc ".toList))).Sendable := by
  intro c h args hh
  simp only [echo] at hh
  split at hh
  · simp at hh; subst hh; exact ⟨by decide, by decide⟩
  · simp at hh
example : Sane "x".toList ["b".toList, "d4".toList] :=
  ⟨by decide, by rw [← matchCommandId_none]; decide⟩

end Gomill.Gtp
