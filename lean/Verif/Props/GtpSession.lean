import Verif.Spec.GtpSession
import Verif.Props.GtpProxy
/-
C92: GTP sessions.
-/
namespace Gomill.Gtp.Session
open Py

variable {ε η σ ω ι : Type}

/-! ### lines -/

theorem readline_cons {l rest : Str} (h : '\n' ∉ l) : readline (l ++ '\n' :: rest) = (l ++ ['\n'], rest) := by
  have h1 : (l ++ '\n' :: rest).takeWhile (· ≠ '\n') = l := by
    rw [List.takeWhile_append_of_pos (by intro a ha; simp; rintro rfl; exact h ha)]
    simp
  have h2 : (l ++ '\n' :: rest).dropWhile (· ≠ '\n') = '\n' :: rest := by
    rw [List.dropWhile_append_of_pos (by intro a ha; simp; rintro rfl; exact h ha)]
    simp
  simp only [readline, h1, h2]

theorem readline_last {l : Str} (h : '\n' ∉ l) : readline l = (l, []) := by
  have h1 : l.takeWhile (· ≠ '\n') = l := by
    rw [List.takeWhile_eq_self_iff]; intro a ha; simp; rintro rfl; exact h ha
  have h2 : l.dropWhile (· ≠ '\n') = [] := by
    rw [List.dropWhile_eq_nil_iff]; intro a ha; simp; rintro rfl; exact h ha
  simp only [readline, h1, h2]

theorem IsLines.flatten {inp : Str} {ls : List Str} (h : IsLines inp ls) : inp = ls.flatten := by
  induction h with
  | nil => rfl
  | last => simp
  | cons _ _ ih => simp [← ih]

/-- What reading gives. -/
theorem readFile_lines {inp : Str} {ls : List Str} (h : IsLines inp ls) :
    (ls = [] ∧ readFile inp = (.error .eofError, [])) ∨
    ∃ l rest inp', ls = l :: rest ∧ IsLines inp' rest ∧ readFile inp = (.ok l, inp') := by
  cases h with
  | nil => left; exact ⟨rfl, rfl⟩
  | last hne h => right; exact ⟨_, [], [], rfl, .nil, by simp [readFile, readline_last h, hne]⟩
  | cons h hr => right; exact ⟨_, _, _, rfl, hr, by simp [readFile, readline_cons h]⟩

theorem isLines_exists (n : Nat) : ∀ inp : Str, inp.length ≤ n → ∃ ls, IsLines inp ls := by
  induction n with
  | zero => intro inp h; have := List.length_eq_zero_iff.1 (Nat.le_zero.1 h); subst this; exact ⟨_, .nil⟩
  | succ n ih =>
    intro inp h
    by_cases hn : '\n' ∈ inp
    · obtain ⟨a, b, rfl, ha⟩ := List.eq_append_cons_of_mem hn
      obtain ⟨ls, hl⟩ := ih b (by simp at h; omega)
      exact ⟨_, .cons ha hl⟩
    · by_cases h0 : inp = []
      · subst h0; exact ⟨_, .nil⟩
      · exact ⟨_, .last h0 hn⟩

/-! ### commands -/

/-- A line which asks for something is answered. -/
theorem serveLine_asks {line c : Str} {id : Option Str} {args : List Str} (h : Asks line id c args)
    (run : ε → Str → List Str → (Bool × Str × Bool) × ε) (e : ε) :
    serveLine run e line =
      (.ok (some (Spec.responseText (run e c args).1.1 id (run e c args).1.2.1), (run e c args).1.2.2), (run e c args).2) := by
  have hfmt : ∀ (b : Bool) (i : Option Str) (t : Str),
      ((if b then '?' else '=') :: (i.getD [] ++ (if t = [] then [] else [' ']) ++ t ++ ['\n', '\n'])) = Spec.responseText b i t := by
    intro b i t
    unfold Spec.responseText
    by_cases ht : t = [] <;> simp [ht]
  have hid : ∀ {i : Str} {out : Option Str}, Spec.IsId i → Spec.ReportedId i out → clipId i = out := by
    intro i out hi ho
    obtain ⟨k, hk, ho⟩ := ho
    obtain ⟨k', hk', ho'⟩ := clipId_reported hi
    rw [hk] at hk'
    injection hk' with hk'
    subst hk'
    rcases ho with ⟨h1, h2⟩ | ⟨h1, h1', h2⟩ | ⟨h1, h2⟩ <;> rcases ho' with ⟨h3, h4⟩ | ⟨h3, h3', h4⟩ | ⟨h3, h4⟩ <;> first | omega | rw [h2, h4]
  unfold serveLine
  cases h with
  | plain h hc =>
    have hq := h.eq_splitWs
    have hne : ¬ (preprocessLine line = [] ∨ preprocessLine line = [' ']) := by rw [preprocess_blank, hq]; simp
    simp only [if_neg hne, parseLine, splitWs_preprocess, hq, matchCommandId_none.mpr hc, hfmt]
  | separate hi h ho =>
    have hq := h.eq_splitWs
    have hne : ¬ (preprocessLine line = [] ∨ preprocessLine line = [' ']) := by rw [preprocess_blank, hq]; simp
    have hm := matchCommandId_of_isId (c := []) hi (by simp)
    rw [List.append_nil] at hm
    simp only [if_neg hne, parseLine, splitWs_preprocess, hq, hm, List.drop_length, if_true, List.head?_cons, List.drop_succ_cons,
      List.drop_zero, hfmt, hid hi ho]
  | attached hi hc hd h ho =>
    have hq := h.eq_splitWs
    have hne : ¬ (preprocessLine line = [] ∨ preprocessLine line = [' ']) := by rw [preprocess_blank, hq]; simp
    simp only [if_neg hne, parseLine, splitWs_preprocess, hq, matchCommandId_of_isId hi hd, List.drop_left, if_neg hc, hfmt, hid hi ho]

/-- A line which asks for nothing is ignored. -/
theorem serveLine_skip {line : Str} (h : ∀ id c args, ¬ Asks line id c args) (run : ε → Str → List Str → (Bool × Str × Bool) × ε) (e : ε) :
    serveLine run e line = (.ok (none, false), e) := by
  rcases serveLine_cases line with h1 | ⟨id, c, args, h1, _⟩
  · exact h1 run e
  · exact absurd h1 (h id c args)

/-! ### the loop -/

theorem steps_stopped (run : ε → Str → List Str → (Bool × Str × Bool) × ε) (F : Files ι ω) (n : Nat) (s : St ε ι ω) (h : s.status ≠ .running) :
    steps run F n s = s := by
  have h1 : step run F s = s := by
    unfold step
    cases hs : s.status with
    | running => exact absurd hs h
    | returned => rfl
    | raised => rfl
    | crashed => rfl
  induction n with
  | zero => rfl
  | succ n ih => rw [steps, h1, ih]

theorem surfaces_failure (x : FileExc) : Surfaces x (writeFailure x) := by
  cases x with
  | ioError errno text =>
    by_cases h : errno = some 32
    · subst h; exact Or.inl ⟨text, rfl, rfl⟩
    · right
      refine ⟨?_, ?_⟩
      · intro t ht; injection ht with h1 h2; exact h h1
      · show (if errno = some epipe then _ else _) = _
        exact if_neg h
  | eofError => exact Or.inr ⟨(by intro t ht; cases ht), rfl⟩
  | controllerDisconnected => exact Or.inr ⟨(by intro t ht; cases ht), rfl⟩
  | other => exact Or.inr ⟨(by intro t ht; cases ht), rfl⟩

theorem surfaces_eq {x y : FileExc} (h : Surfaces x y) : y = writeFailure x := by
  have h' := surfaces_failure x
  rcases h with ⟨t, rfl, rfl⟩ | ⟨h1, rfl⟩
  · rfl
  · rcases h' with ⟨t, h2, _⟩ | ⟨_, h2⟩
    · exact absurd h2 (h1 t)
    · exact h2.symm

/-- The conversation prescribed is the one which takes place. -/
theorem steps_talk {run : ε → Str → List Str → (Bool × Str × Bool) × ε} {write : Str → ω → Option FileExc × ω} {flush : ω → Option FileExc × ω}
    {e e' : ε} {w w' : ω} {lines unread : List Str} {evs : List Ev} {st : Status} (h : Talk run write flush e w lines evs st e' w' unread) :
    ∀ (inp : Str) (n : Nat) (past : List Ev), IsLines inp lines → lines.length < n →
      ∃ inp', IsLines inp' unread ∧
        steps run (fileSession write flush) n { engine := e, src := inp, dst := w, events := past, status := .running } =
          { engine := e', src := inp', dst := w', events := past ++ evs, status := st } := by
  induction h with
  | eof =>
    intro inp n past hl hn
    rcases readFile_lines hl with ⟨_, hr⟩ | ⟨l, rest, inp', h1, _⟩
    · refine ⟨[], .nil, ?_⟩
      obtain ⟨n, rfl⟩ : ∃ m, n = m + 1 := ⟨n - 1, by simp at hn; omega⟩
      rw [steps]
      have : step run (fileSession write flush) ⟨‹ε›, inp, ‹ω›, past, .running⟩ = ⟨‹ε›, [], ‹ω›, past ++ [.eof], .returned⟩ := by
        simp only [step, fileSession, hr, if_true]
      rw [this, steps_stopped _ _ _ _ (by simp)]
    · cases h1
  | @skip e e' w w' line rest unread evs st h _ ih =>
    intro inp n past hl hn
    rcases readFile_lines hl with ⟨h1, _⟩ | ⟨l, rest', inp', h1, h2, hr⟩
    · cases h1
    · injection h1 with h1 h1'
      subst h1; subst h1'
      obtain ⟨n, rfl⟩ : ∃ m, n = m + 1 := ⟨n - 1, by simp at hn; omega⟩
      obtain ⟨inp2, h3, h4⟩ := ih inp' n (past ++ [.read line]) h2 (by simp at hn; omega)
      refine ⟨inp2, h3, ?_⟩
      rw [steps]
      have : step run (fileSession write flush) ⟨e, inp, w, past, .running⟩ = ⟨e, inp', w, past ++ [.read line], .running⟩ := by
        simp only [step, fileSession, hr, serveOne, serveLine_skip h, Bool.false_eq_true, if_false]
      rw [this, h4]
      simp
  | @answer e e1 e' w w1 w2 w' line c text id args err rest unread evs st h hrun hw hf _ ih =>
    intro inp n past hl hn
    rcases readFile_lines hl with ⟨h1, _⟩ | ⟨l, rest', inp', h1, h2, hr⟩
    · cases h1
    · injection h1 with h1 h1'
      subst h1; subst h1'
      obtain ⟨n, rfl⟩ : ∃ m, n = m + 1 := ⟨n - 1, by simp at hn; omega⟩
      obtain ⟨inp2, h3, h4⟩ := ih inp' n (past ++ [.read line] ++ [.write (Spec.responseText err id text), .flush]) h2 (by simp at hn; omega)
      refine ⟨inp2, h3, ?_⟩
      rw [steps]
      have : step run (fileSession write flush) ⟨e, inp, w, past, .running⟩ =
          ⟨e1, inp', w2, past ++ [.read line] ++ [.write (Spec.responseText err id text), .flush], .running⟩ := by
        simp only [step, fileSession, hr, serveOne, serveLine_asks h, hrun, Files.send, hw, hf, Bool.false_eq_true, if_false]
      rw [this, h4]
      simp
  | @quit e e1 w w1 w2 line c text id args err rest h hrun hw hf =>
    intro inp n past hl hn
    rcases readFile_lines hl with ⟨h1, _⟩ | ⟨l, rest', inp', h1, h2, hr⟩
    · cases h1
    · injection h1 with h1 h1'
      subst h1; subst h1'
      obtain ⟨n, rfl⟩ : ∃ m, n = m + 1 := ⟨n - 1, by simp at hn; omega⟩
      refine ⟨inp', h2, ?_⟩
      rw [steps]
      have : step run (fileSession write flush) ⟨e, inp, w, past, .running⟩ =
          ⟨e1, inp', w2, past ++ [.read line] ++ [.write (Spec.responseText err id text), .flush], .returned⟩ := by
        simp only [step, fileSession, hr, serveOne, serveLine_asks h, hrun, Files.send, hw, hf, if_true]
      rw [this, steps_stopped _ _ _ _ (by simp)]
      simp
  | @noWrite e e1 w w1 line c text id args err fin rest x y h hrun hw hx =>
    intro inp n past hl hn
    rcases readFile_lines hl with ⟨h1, _⟩ | ⟨l, rest', inp', h1, h2, hr⟩
    · cases h1
    · injection h1 with h1 h1'
      subst h1; subst h1'
      obtain ⟨n, rfl⟩ : ∃ m, n = m + 1 := ⟨n - 1, by simp at hn; omega⟩
      refine ⟨inp', h2, ?_⟩
      rw [steps]
      have : step run (fileSession write flush) ⟨e, inp, w, past, .running⟩ =
          ⟨e1, inp', w1, past ++ [.read line] ++ [.write (Spec.responseText err id text)], .raised y⟩ := by
        simp only [step, fileSession, hr, serveOne, serveLine_asks h, hrun, Files.send, hw, surfaces_eq hx]
      rw [this, steps_stopped _ _ _ _ (by simp)]
      simp
  | @noFlush e e1 w w1 w2 line c text id args err fin rest x y h hrun hw hf hx =>
    intro inp n past hl hn
    rcases readFile_lines hl with ⟨h1, _⟩ | ⟨l, rest', inp', h1, h2, hr⟩
    · cases h1
    · injection h1 with h1 h1'
      subst h1; subst h1'
      obtain ⟨n, rfl⟩ : ∃ m, n = m + 1 := ⟨n - 1, by simp at hn; omega⟩
      refine ⟨inp', h2, ?_⟩
      rw [steps]
      have : step run (fileSession write flush) ⟨e, inp, w, past, .running⟩ =
          ⟨e1, inp', w2, past ++ [.read line] ++ [.write (Spec.responseText err id text), .flush], .raised y⟩ := by
        simp only [step, fileSession, hr, serveOne, serveLine_asks h, hrun, Files.send, hw, hf, surfaces_eq hx]
      rw [this, steps_stopped _ _ _ _ (by simp)]
      simp

/-- There is a conversation for any lines. -/
theorem talk_exists (run : ε → Str → List Str → (Bool × Str × Bool) × ε) (write : Str → ω → Option FileExc × ω) (flush : ω → Option FileExc × ω)
    (lines : List Str) : ∀ (e : ε) (w : ω), ∃ evs st e' w' unread, Talk run write flush e w lines evs st e' w' unread := by
  induction lines with
  | nil => intro e w; exact ⟨_, _, _, _, _, .eof⟩
  | cons line rest ih =>
    intro e w
    by_cases h : ∃ id c args, Asks line id c args
    · obtain ⟨id, c, args, h⟩ := h
      obtain ⟨⟨⟨err, text, fin⟩, e1⟩, hrun⟩ : ∃ r, run e c args = r := ⟨_, rfl⟩
      obtain ⟨⟨x, w1⟩, hw⟩ : ∃ r, write (Spec.responseText err id text) w = r := ⟨_, rfl⟩
      cases x with
      | some x => exact ⟨_, _, _, _, _, .noWrite h hrun hw (surfaces_failure x)⟩
      | none =>
        obtain ⟨⟨x, w2⟩, hf⟩ : ∃ r, flush w1 = r := ⟨_, rfl⟩
        cases x with
        | some x => exact ⟨_, _, _, _, _, .noFlush h hrun hw hf (surfaces_failure x)⟩
        | none =>
          cases fin with
          | true => exact ⟨_, _, _, _, _, .quit h hrun hw hf⟩
          | false =>
            obtain ⟨evs, st, e', w', unread, ht⟩ := ih e1 w2
            exact ⟨_, _, _, _, _, .answer h hrun hw hf ht⟩
    · obtain ⟨evs, st, e', w', unread, ht⟩ := ih e w
      exact ⟨_, _, _, _, _, .skip (fun id c args hq => h ⟨id, c, args, hq⟩) ht⟩

/-! ### C92 -/

/-- C92: every input has definite lines. -/
theorem C92_lines (inp : Str) : ∃ lines, IsLines inp lines ∧ inp = lines.flatten := by
  obtain ⟨ls, h⟩ := isLines_exists _ inp (Nat.le_refl _)
  exact ⟨ls, h, h.flatten⟩

/-- C92: a session with any engine, input and output file ends, after as many iterations as there are lines (and one more) at most, and it went as prescribed by
`Talk`: nothing else can have happened. -/
theorem C92_session (run : ε → Str → List Str → (Bool × Str × Bool) × ε) (write : Str → ω → Option FileExc × ω) (flush : ω → Option FileExc × ω)
    (e : ε) (w : ω) {inp : Str} {lines : List Str} (hl : IsLines inp lines) :
    (∃ evs st e' w' unread, Talk run write flush e w lines evs st e' w' unread) ∧
    ∀ evs st e' w' unread, Talk run write flush e w lines evs st e' w' unread → ∀ n, lines.length < n →
      steps run (fileSession write flush) n (start e inp w) = { engine := e', src := unread.flatten, dst := w', events := evs, status := st } := by
  refine ⟨talk_exists run write flush lines e w, ?_⟩
  intro evs st e' w' unread ht n hn
  obtain ⟨inp', h1, h2⟩ := steps_talk ht inp n [] hl hn
  rw [← h1.flatten]
  exact h2

/-- C92: handling a line can't go wrong, so that a session ends by returning or with an exception from a file. -/
theorem C92_endings {run : ε → Str → List Str → (Bool × Str × Bool) × ε} {write : Str → ω → Option FileExc × ω} {flush : ω → Option FileExc × ω}
    {e e' : ε} {w w' : ω} {lines unread : List Str} {evs : List Ev} {st : Status} (h : Talk run write flush e w lines evs st e' w' unread) :
    (st = .returned ∧ evs.getLast? = some .eof ∧ unread = []) ∨ (st = .returned ∧ evs.getLast? = some .flush) ∨
    (∃ y, st = .raised y ∧ (evs.getLast? = some .flush ∨ ∃ r, evs.getLast? = some (.write r))) := by
  induction h with
  | eof => left; simp
  | skip h ht ih =>
    have hne : ∀ (evs : List Ev), evs.getLast? ≠ none → ∀ x, (x :: evs).getLast? = evs.getLast? := by
      intro evs hx x
      cases evs with
      | nil => simp at hx
      | cons a l => rw [List.getLast?_cons_cons]
    rcases ih with ⟨h1, h2, h3⟩ | ⟨h1, h2⟩ | ⟨y, h1, h2 | ⟨r, h2⟩⟩
    · left; rw [hne _ (by rw [h2]; simp)]; exact ⟨h1, h2, h3⟩
    · right; left; rw [hne _ (by rw [h2]; simp)]; exact ⟨h1, h2⟩
    · right; right; rw [hne _ (by rw [h2]; simp)]; exact ⟨y, h1, Or.inl h2⟩
    · right; right; rw [hne _ (by rw [h2]; simp)]; exact ⟨y, h1, Or.inr ⟨r, h2⟩⟩
  | answer h hrun hw hf ht ih =>
    have hne : ∀ (evs : List Ev), evs.getLast? ≠ none → ∀ x, (x :: evs).getLast? = evs.getLast? := by
      intro evs hx x
      cases evs with
      | nil => simp at hx
      | cons a l => rw [List.getLast?_cons_cons]
    have h3 : ∀ (evs : List Ev), evs.getLast? ≠ none → ∀ x y z, (x :: y :: z :: evs).getLast? = evs.getLast? := by
      intro evs hx x y z
      rw [List.getLast?_cons_cons, List.getLast?_cons_cons, hne _ hx]
    rcases ih with ⟨h1, h2, h4⟩ | ⟨h1, h2⟩ | ⟨y, h1, h2 | ⟨r, h2⟩⟩
    · left; rw [h3 _ (by rw [h2]; simp)]; exact ⟨h1, h2, h4⟩
    · right; left; rw [h3 _ (by rw [h2]; simp)]; exact ⟨h1, h2⟩
    · right; right; rw [h3 _ (by rw [h2]; simp)]; exact ⟨y, h1, Or.inl h2⟩
    · right; right; rw [h3 _ (by rw [h2]; simp)]; exact ⟨y, h1, Or.inr ⟨r, h2⟩⟩
  | quit => right; left; exact ⟨rfl, rfl⟩
  | noWrite => right; right; exact ⟨_, rfl, Or.inr ⟨_, rfl⟩⟩
  | noFlush => right; right; exact ⟨_, rfl, Or.inl rfl⟩

/-- C92: if the output can be written, what it receives is what `serve` says, and nothing else (so that what is proved about `serve`, C61 among it, is about
sessions). -/
theorem C92_output {run : ε → Str → List Str → (Bool × Str × Bool) × ε} {e e' : ε} {w w' : Str} {lines unread : List Str} {evs : List Ev} {st : Status}
    (h : Talk run (fun s w => (none, w ++ s)) (fun w => (none, w)) e w lines evs st e' w' unread) :
    st = .returned ∧ ∃ out, serve run e lines = (.ok out, e') ∧ w' = w ++ out := by
  generalize hwr : (fun (s w : Str) => ((none : Option FileExc), w ++ s)) = wr at h
  generalize hfl : (fun w : Str => ((none : Option FileExc), w)) = fl at h
  induction h with
  | eof => exact ⟨rfl, [], rfl, by simp⟩
  | @skip e e' w w' line rest unread evs st h _ ih =>
    obtain ⟨h1, out, h2, h3⟩ := ih
    exact ⟨h1, out, by simp [serve, serveLine_skip h, h2], h3⟩
  | @answer e e1 e' w w1 w2 w' line c text id args err rest unread evs st h hrun hw hf _ ih =>
    obtain ⟨h1, out, h2, h3⟩ := ih
    subst hwr; subst hfl
    injection hw with _ hw; injection hf with _ hf
    subst hw; subst hf
    refine ⟨h1, Spec.responseText err id text ++ out, ?_, by rw [h3, List.append_assoc]⟩
    simp [serve, serveLine_asks h, hrun, h2]
  | @quit e e1 w w1 w2 line c text id args err rest h hrun hw hf =>
    subst hwr; subst hfl
    injection hw with _ hw; injection hf with _ hf
    subst hw; subst hf
    refine ⟨rfl, Spec.responseText err id text, ?_, rfl⟩
    simp [serve, serveLine_asks h, hrun]
  | noWrite h hrun hw => subst hwr; injection hw with hw; cases hw
  | noFlush h hrun hw hf => subst hfl; injection hf with hf; cases hf

/-- C92: what has happened in a session, with any files, never depends on what is still to come; and when a session has ended, nothing more happens. -/
theorem C92_so_far (run : ε → Str → List Str → (Bool × Str × Bool) × ε) (F : Files ι ω) (n m : Nat) (s : St ε ι ω) :
    (steps run F n s).events <+: (steps run F (n + m) s).events ∧
    ((steps run F n s).status ≠ .running → steps run F (n + m) s = steps run F n s) := by
  have hadd : ∀ n (s : St ε ι ω), steps run F (n + m) s = steps run F m (steps run F n s) := by
    intro n
    induction n with
    | zero => intro s; simp [steps]
    | succ n ih => intro s; rw [Nat.succ_add, steps, ih, steps]
  have hone : ∀ s : St ε ι ω, s.events <+: (step run F s).events := by
    intro s
    unfold step
    cases hs : s.status with
    | running =>
      simp only
      cases hr : F.read s.src with
      | mk x src =>
        cases x with
        | error x => simp only; split <;> simp
        | ok line =>
          simp only [serveOne]
          cases serveLine run s.engine line with
          | mk x e =>
            cases x with
            | error x => simp
            | ok p =>
              obtain ⟨r, fin⟩ := p
              cases r with
              | none => simp
              | some r =>
                simp only
                cases (F.send r s.dst).2.1 <;> simp
    | returned => simp
    | raised => simp
    | crashed => simp
  have hmany : ∀ m (s : St ε ι ω), s.events <+: (steps run F m s).events := by
    intro m
    induction m with
    | zero => intro s; exact List.prefix_refl _
    | succ m ih => intro s; rw [steps]; exact (hone s).trans (ih _)
  exact ⟨by rw [hadd]; exact hmany m _, fun h => by rw [hadd]; exact steps_stopped run F m _ h⟩

theorem preprocess_newline (l : Str) : preprocessLine (l ++ ['\n']) = preprocessLine l := by
  unfold preprocessLine
  congr 1
  induction l with
  | nil => rfl
  | cons c l ih =>
    rw [List.cons_append, List.takeWhile_cons, List.takeWhile_cons]
    split
    · rw [List.filter_cons, List.filter_cons, ih]
    · rfl

/-- C92: whether a line has its newline makes no difference to the engine. -/
theorem C92_newline (run : ε → Str → List Str → (Bool × Str × Bool) × ε) (e : ε) (line : Str) :
    serveLine run e (line ++ ['\n']) = serveLine run e line := by
  unfold serveLine
  rw [preprocess_newline]

/-- A line without its newline. -/
def chomp (l : Str) : Str := if l.getLast? = some '\n' then l.dropLast else l

/-- An event, with the line without its newline. -/
def Ev.chomp : Ev → Ev
  | .read l => .read (Session.chomp l)
  | x => x

theorem serveLine_chomp (run : ε → Str → List Str → (Bool × Str × Bool) × ε) (e : ε) (line : Str) :
    serveLine run e (chomp line) = serveLine run e line := by
  unfold chomp
  split
  · rename_i h
    have : line = line.dropLast ++ ['\n'] := by
      have hne : line ≠ [] := by rintro rfl; simp at h
      rw [List.getLast?_eq_some_getLast hne] at h
      injection h with h
      conv => lhs; rw [← List.dropLast_append_getLast hne, h]
    conv => rhs; rw [this, C92_newline]
  · rfl

/-- The same state, with lines without their newlines. -/
def St.chomp (s : St ε ι ω) : St ε ι ω := { s with events := s.events.map Ev.chomp }

theorem step_chomp (run : ε → Str → List Str → (Bool × Str × Bool) × ε) (write : Str → ω → Option FileExc × ω) (flush : ω → Option FileExc × ω)
    (s : St ε Str ω) : step run (terminalSession write flush) s.chomp = (step run (fileSession write flush) s).chomp := by
  unfold step
  cases hs : s.status with
  | running =>
    have h1 : s.chomp.status = .running := hs
    have h2 : s.chomp.src = s.src := rfl
    simp only [h1, h2]
    have ht : (terminalSession write flush).read s.src = rawInput s.src := rfl
    have hf : (fileSession write flush).read s.src = readFile s.src := rfl
    rw [ht, hf]
    by_cases h0 : (readline s.src).1 = []
    · simp only [rawInput, readFile, h0, if_true]
      simp [St.chomp, Ev.chomp]
    · simp only [rawInput, readFile, if_neg h0]
      have hc : (if (readline s.src).1.getLast? = some '\n' then (readline s.src).1.dropLast else (readline s.src).1) = chomp (readline s.src).1 := rfl
      have he : s.chomp.engine = s.engine := rfl
      have hd : s.chomp.dst = s.dst := rfl
      rw [hc]
      simp only [serveOne, serveLine_chomp, he, hd]
      cases serveLine run s.engine (readline s.src).1 with
      | mk x e =>
        cases x with
        | error x => simp [St.chomp, Ev.chomp]
        | ok p =>
          obtain ⟨r, fin⟩ := p
          cases r with
          | none => simp [St.chomp, Ev.chomp]
          | some r =>
            have hsend : (terminalSession write flush).send r s.dst = (fileSession write flush).send r s.dst := rfl
            have hev : ((fileSession write flush).send r s.dst).1.map Ev.chomp = ((fileSession write flush).send r s.dst).1 := by
              simp only [Files.send]
              cases (fileSession write flush).write r s.dst with
              | mk x w =>
                cases x with
                | some x => rfl
                | none =>
                  simp only
                  cases (fileSession write flush).flush w with
                  | mk x w => cases x <;> rfl
            simp only [St.chomp, hsend]
            cases ((fileSession write flush).send r s.dst).2.1 with
            | some x => simp [Ev.chomp, hev]
            | none => simp [Ev.chomp, hev]
  | returned =>
    have h1 : s.chomp.status = .returned := hs
    simp only [h1]
  | raised x =>
    have h1 : s.chomp.status = .raised x := hs
    simp only [h1]
  | crashed x =>
    have h1 : s.chomp.status = .crashed x := hs
    simp only [h1]

/-- C92: an interactive session. If stdin isn't a terminal it is a session on stdin and stdout, and readline is left alone. If it is a terminal, the same happens as
if what is typed were in a file (but for the newlines of the lines read): same answers, same end, same effect on the engine. While it lasts, and after it has
failed, commands are completed; when it ends normally, readline is as it was, and the history has been saved. -/
theorem C92_interactive (B : η → List Str → Eng η σ → Outcome × Eng η σ) (write : Str → ω → Option FileExc × ω) (flush : ω → Option FileExc × ω)
    (n : Nat) (e : Eng η σ) (inp : Str) (dst : ω) (rl : Readline) :
    let F := steps (Eng.run B) (fileSession write flush) n (start e inp dst)
    interactive B write flush false n e inp dst rl = (F, rl) ∧
    (interactive B write flush true n e inp dst rl).1 = { F with events := F.events.map Ev.chomp } ∧
    (F.status = .returned →
      (interactive B write flush true n e inp dst rl).2 = { commands := rl.commands, delims := rl.delims, historySaved := true }) ∧
    (F.status ≠ .returned →
      (interactive B write flush true n e inp dst rl).2 = { commands := some e.listCommands, delims := [], historySaved := rl.historySaved }) := by
  have key : ∀ n (s : St (Eng η σ) Str ω), steps (Eng.run B) (terminalSession write flush) n s.chomp =
      (steps (Eng.run B) (fileSession write flush) n s).chomp := by
    intro n
    induction n with
    | zero => intro s; rfl
    | succ n ih => intro s; rw [steps, step_chomp, ih, steps]
  have h := key n (start e inp dst)
  have h0 : (start e inp dst : St (Eng η σ) Str ω).chomp = start e inp dst := rfl
  rw [h0] at h
  refine ⟨rfl, ?_, ?_, ?_⟩
  · unfold interactive
    simp only [if_true, h]
    split <;> rfl
  · intro hs
    unfold interactive
    simp only [if_true, h]
    rw [if_pos (by exact hs)]
  · intro hs
    unfold interactive
    simp only [if_true, h]
    rw [if_neg (by exact hs)]

/-! ### the handler table -/

/-- C92: the handler for a command is the one most recently registered and not removed since. -/
theorem C92_registered (regs : List (Reg η)) (app : σ) (c : Str) : (regs.foldl Reg.apply (Eng.new app)).handlers.lookup c = registered regs c := by
  have key : ∀ (e : Eng η σ) (cur : Option (Handler η)), e.handlers.lookup c = cur →
      (regs.foldl Reg.apply e).handlers.lookup c = regs.foldl (Reg.effect c) cur := by
    induction regs with
    | nil => intro e cur h; exact h
    | cons r regs ih =>
      intro e cur h
      rw [List.foldl_cons, List.foldl_cons]
      apply ih
      have hadd : ∀ (l : List (Str × Handler η)) k v, List.lookup c ((k, v) :: l) = if k = c then some v else l.lookup c := by
        intro l k v
        rw [List.lookup_cons]
        by_cases hk : k = c
        · subst hk; simp
        · have : (c == k) = false := by simp; exact fun h => hk h.symm
          rw [this, if_neg hk]
      have hall : ∀ (hs l : List (Str × Handler η)), List.lookup c (hs ++ l) = (hs.lookup c).or (l.lookup c) := by
        intro hs l
        rw [List.lookup_append]
      cases r with
      | add k v => show List.lookup c ((k, v) :: e.handlers) = _; rw [hadd, h]; rfl
      | addAll hs => show List.lookup c (hs ++ e.handlers) = _; rw [hall, h]; rfl
      | remove k =>
        show List.lookup c (e.handlers.filter (fun x => x.1 ≠ k)) = if k = c then none else cur
        rw [← h]
        generalize e.handlers = l
        induction l with
        | nil => simp
        | cons x l ihl =>
          obtain ⟨k', v⟩ := x
          rw [List.filter_cons]
          by_cases hk : k' = k
          · subst hk
            simp only [ne_eq, not_true_eq_false, decide_false, Bool.false_eq_true, if_false]
            rw [show (List.filter (fun x => decide ¬x.1 = k') l) = List.filter (fun x => decide (x.1 ≠ k')) l from rfl, ihl, hadd]
            split <;> rfl
          · simp only [ne_eq, hk, not_false_eq_true, decide_true, if_true]
            rw [hadd, hadd]
            rw [show (List.filter (fun x => decide ¬x.1 = k) l) = List.filter (fun x => decide (x.1 ≠ k)) l from rfl, ihl]
            by_cases hc : k = c
            · subst hc; simp [hk]
            · simp [hc]
      | protocol =>
        show List.lookup c (("quit".toList, _) :: ("protocol_version".toList, _) :: ("list_commands".toList, _) :: ("known_command".toList, _) :: e.handlers) = (protocolHandler c).or cur
        simp only [hadd, h, protocolHandler, eq_comm (a := c)]
        by_cases h1 : "known_command".toList = c
        · subst h1; simp
        · by_cases h2 : "list_commands".toList = c
          · subst h2; simp
          · by_cases h3 : "protocol_version".toList = c
            · subst h3; simp
            · by_cases h4 : "quit".toList = c
              · subst h4; simp
              · simp only [if_neg h1, if_neg h2, if_neg h3, if_neg h4, Option.none_or]
      | fatal b => exact h
  exact key _ none rfl

/-- The engine has a handler for the command. -/
def Eng.Has (e : Eng η σ) (c : Str) : Prop := e.handlers.lookup c ≠ none

/-- C92: list_commands gives the commands which are registered, in order, each once. -/
theorem C92_list_commands (e : Eng η σ) : e.listCommands.Pairwise (· < ·) ∧ ∀ c, c ∈ e.listCommands ↔ e.Has c := by
  refine ⟨sortStrs_sorted _ (nodup_eraseDups _ _ (Nat.le_refl _)), ?_⟩
  intro c
  unfold Eng.listCommands Eng.Has
  rw [(Sgf.sortStrs_perm _).mem_iff, List.mem_eraseDups, ← lookup_isSome_iff, Option.ne_none_iff_exists']

/-- C92: the commands which add_protocol_commands adds do what the GTP specification says, whatever the arguments, and change nothing. -/
theorem C92_protocol (B : η → List Str → Eng η σ → Outcome × Eng η σ) (e : Eng η σ) (c : Str) (args : List Str) :
    (e.handlers.lookup c = some .protocolVersion → e.run B c args = ((false, "2".toList, false), e)) ∧
    (e.handlers.lookup c = some .quit → e.run B c args = ((false, [], true), e)) ∧
    (e.handlers.lookup c = some .listCommands → (∀ k, e.Has k → isWellFormedWord k = true) →
      e.run B c args = ((false, join ['\n'] e.listCommands, false), e)) ∧
    (e.handlers.lookup c = some .knownCommand →
      (e.run B c args).2 = e ∧
      (((∃ k rest, args = k :: rest ∧ e.Has k) ∧ (e.run B c args).1 = (false, "true".toList, false)) ∨
       ((¬ ∃ k rest, args = k :: rest ∧ e.Has k) ∧ (e.run B c args).1 = (false, "false".toList, false)))) := by
  refine ⟨?_, ?_, ?_, ?_⟩
  · intro h; simp only [Eng.run, Eng.doCommand, h, Handler.call, reply]; rfl
  · intro h; simp only [Eng.run, Eng.doCommand, h, Handler.call, reply]; rfl
  · intro h hn
    simp only [Eng.run, Eng.doCommand, h, Handler.call, reply]
    rw [clean_good_id (good_lines (fun w hw => hn w (((C92_list_commands e).2 w).1 hw)))]
  · intro h
    simp only [Eng.run, Eng.doCommand, h, Handler.call, reply]
    have ht : cleanResponse (some (formatGtpBoolean true)) = "true".toList := by decide
    have hf : cleanResponse (some (formatGtpBoolean false)) = "false".toList := by decide
    refine ⟨trivial, ?_⟩
    cases args with
    | nil =>
      right
      refine ⟨?_, ?_⟩
      · rintro ⟨k, rest, h1, _⟩; exact nomatch h1
      · simp only [List.head?_nil, Option.any_none, hf]
    | cons k rest =>
      simp only [List.head?_cons, Option.any_some]
      cases hk : e.handlers.lookup k with
      | none =>
        right
        refine ⟨?_, ?_⟩
        · rintro ⟨k', rest', h1, h2⟩; injection h1 with h1; subst h1; exact h2 hk
        · simp only [Option.isSome_none, hf]
      | some v =>
        left
        refine ⟨⟨k, rest, rfl, by unfold Eng.Has; rw [hk]; simp⟩, ?_⟩
        simp only [Option.isSome_some, ht]

/-- C92: what is sent for a command, and whether the session goes on, for all that a handler can do; the handler's effects remain in every case. -/
theorem C92_outcomes (B : η → List Str → Eng η σ → Outcome × Eng η σ) (e e' : Eng η σ) (c : Str) (args : List Str) (h : η) :
    (e.handlers.lookup c = none → e.run B c args = ((true, "unknown command".toList, false), e)) ∧
    (e.handlers.lookup c = some (.custom h) →
      (∀ r, B h args e = (.value r, e') → e.run B c args = ((false, cleanResponse r, false), e')) ∧
      (∀ m, B h args e = (.gtpError m, e') → m ≠ [] → e.run B c args = ((true, cleanResponse (some m), false), e')) ∧
      (B h args e = (.gtpError [], e') → e.run B c args = ((true, "unspecified error".toList, false), e')) ∧
      (∀ m, B h args e = (.gtpFatalError m, e') → m ≠ [] → e.run B c args = ((true, cleanResponse (some m), true), e')) ∧
      (B h args e = (.gtpFatalError [], e') → e.run B c args = ((true, "unspecified fatal error".toList, true), e')) ∧
      (∀ m, B h args e = (.gtpQuit m, e') → e.run B c args = ((false, cleanResponse (some m), true), e')) ∧
      (∀ tb, B h args e = (.exception tb, e') → e'.exceptionsFatal = true →
        e.run B c args = ((true, cleanResponse (some ("internal error; exiting\n".toList ++ tb)), true), e')) ∧
      (∀ tb, B h args e = (.exception tb, e') → e'.exceptionsFatal = false →
        e.run B c args = ((true, cleanResponse (some ("internal error\n".toList ++ tb)), false), e'))) := by
  refine ⟨?_, ?_⟩
  · intro h0; simp only [Eng.run, Eng.doCommand, h0, reply]; rfl
  · intro h0
    refine ⟨?_, ?_, ?_, ?_, ?_, ?_, ?_, ?_⟩
    · intro r hr; simp only [Eng.run, Eng.doCommand, h0, Handler.call, hr, reply]
    · intro m hr hm; simp only [Eng.run, Eng.doCommand, h0, Handler.call, hr, reply, if_neg hm]
    · intro hr; simp only [Eng.run, Eng.doCommand, h0, Handler.call, hr, reply]; rfl
    · intro m hr hm; simp only [Eng.run, Eng.doCommand, h0, Handler.call, hr, reply, if_neg hm]
    · intro hr; simp only [Eng.run, Eng.doCommand, h0, Handler.call, hr, reply]; rfl
    · intro m hr; simp only [Eng.run, Eng.doCommand, h0, Handler.call, hr, reply]
    · intro tb hr hf; simp [Eng.run, Eng.doCommand, h0, Handler.call, hr, reply, hf]
    · intro tb hr hf; simp [Eng.run, Eng.doCommand, h0, Handler.call, hr, reply, hf]

/-- C92: the completer gives, one after another, the commands the engine had when it was made which start with what was typed, each with a space after it. -/
theorem C92_completer (e : Eng η σ) (text : Str) : ∃ found : List Str, found.Pairwise (· < ·) ∧ (∀ c, c ∈ found ↔ e.Has c ∧ text <+: c) ∧
    ∀ k, completer e.listCommands text k = (found[k]?).map (· ++ " ".toList) := by
  refine ⟨e.listCommands.filter (fun s => text.isPrefixOf s), (C92_list_commands e).1.sublist List.filter_sublist, ?_, fun k => rfl⟩
  intro c
  rw [List.mem_filter, (C92_list_commands e).2, List.isPrefixOf_iff_prefix]

/-- C92: GTP booleans: exactly 'true' and 'false'. -/
theorem C92_boolean (arg : Str) (b : Bool) : interpretBoolean arg = some b ↔ arg = formatGtpBoolean b := by
  unfold interpretBoolean formatGtpBoolean
  have hne : "true".toList ≠ "false".toList := by decide
  generalize "true".toList = t at *
  generalize "false".toList = f at *
  by_cases h1 : arg = t
  · subst h1; cases b <;> simp [hne]
  · by_cases h2 : arg = f
    · subst h2; cases b <;> simp [h1]
    · cases b <;> simp [h1, h2]

/-- C92: GTP integers: negative numbers are read as -1, and those past 2^31-1 as 2^31-1. -/
theorem C92_int (k : Int) : interpretInt (strInt k) = some (max (-1) (min k (2 ^ 31 - 1))) := by
  unfold interpretInt
  rw [parseInt_strInt]
  have hm : ((gtpIntMax : Nat) : Int) = 2147483647 := rfl
  simp only [hm]
  by_cases h1 : k < 0
  · rw [if_pos h1]; congr 1; omega
  · rw [if_neg h1]
    by_cases h2 : k > 2147483647
    · rw [if_pos h2]; congr 1; omega
    · rw [if_neg h2]; congr 1; omega

/-! ### an example -/

/-- An engine which counts; `learn` makes it register a new command. -/
def exampleB : Bool → List Str → Eng Bool Nat → Outcome × Eng Bool Nat
  | true, _, e => (.value (some (strInt (e.app + 1))), { e with app := e.app + 1 })
  | false, args, e => match args with
    | [] => (.exception "tb".toList, e)
    | a :: _ => (.value none, e.addCommand a (.custom true))

def exampleEngine : Eng Bool Nat :=
  [Reg.protocol, .add "count".toList (.custom true), .add "learn".toList (.custom false), .remove "quit".toList, .add "bye".toList .quit].foldl Reg.apply (Eng.new 0)

def exampleInput : Str := "1 count\n# nothing\nadd\nlearn add\nlearn\n7 add\nbye\ncount".toList

/-- A pipe which takes so many responses. -/
def examplePipe (errno : Nat) (_ : Str) : Nat → Option FileExc × Nat
  | 0 => (some (.ioError (some errno) "broken".toList), 0)
  | n + 1 => (none, n)

/-- C92: an example: a session which quits; the same with a pipe which breaks, in two ways; and at a terminal. -/
theorem C92_witness :
    (let r := steps (Eng.run exampleB) (fileSession (fun s w => (none, w ++ s)) (fun w => (none, w))) 9 (start exampleEngine exampleInput [])
     r.dst = "=1 1\n\n? unknown command\n\n=\n\n? internal error\ntb\n\n=7 2\n\n=\n\n".toList ∧ r.src = "count".toList ∧ r.engine.app = 2 ∧
       r.status = .returned) ∧
    (let r := steps (Eng.run exampleB) (fileSession (examplePipe 32) (fun w => (none, w))) 9 (start exampleEngine exampleInput 1)
     r.events = [.read "1 count\n".toList, .write "=1 1\n\n".toList, .flush, .read "# nothing\n".toList, .read "add\n".toList,
       .write "? unknown command\n\n".toList] ∧ r.status = .raised (.controllerDisconnected (some 32) "broken".toList)) ∧
    (steps (Eng.run exampleB) (fileSession (examplePipe 5) (fun w => (none, w))) 9 (start exampleEngine exampleInput 1)).status =
      .raised (.ioError (some 5) "broken".toList) ∧
    exampleEngine.listCommands = ["bye", "count", "known_command", "learn", "list_commands", "protocol_version"].map String.toList ∧
    completer exampleEngine.listCommands "l".toList 1 = some "list_commands ".toList ∧ completer exampleEngine.listCommands "l".toList 2 = none := by
  refine ⟨?_, ?_, ?_, ?_, ?_, ?_⟩ <;> decide +kernel

end Gomill.Gtp.Session
