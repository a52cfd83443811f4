import Verif.Spec.KgsProxy
import Verif.Props.GtpProxy
import Verif.Props.GtpSave
/-
C98: kgs_proxy.py.
-/
namespace Gomill.Kgs
open Py Gtp
variable {σ : Type}

theorem interpretColour_iff (a : Str) (c : Colour) : Gtp.interpretColour a = some c ↔ ColourWord a c := by
  unfold Gtp.interpretColour ColourWord lower
  have e1 : "w".toList = ['w'] := rfl
  have e2 : "white".toList = ['w', 'h', 'i', 't', 'e'] := rfl
  have e3 : "b".toList = ['b'] := rfl
  have e4 : "black".toList = ['b', 'l', 'a', 'c', 'k'] := rfl
  rw [e1, e2, e3, e4]
  generalize a.map Char.toLower = s
  constructor
  · intro h
    split at h
    · rename_i h1
      cases Option.some.inj h
      exact .inr ⟨rfl, h1⟩
    · split at h
      · rename_i h1
        cases Option.some.inj h
        exact .inl ⟨rfl, h1⟩
      · cases h
  · rintro (⟨rfl, h⟩ | ⟨rfl, h⟩)
    · rw [if_neg (by rcases h with rfl | rfl <;> decide), if_pos h]
    · rw [if_pos h]

/-- C98: every other command is dealt with by the proxy (see C61). -/
theorem C98_transparent (C : Channel σ) (k : Kgs σ) (listing : Option (List Str)) (command : Str) (args : List Str)
    (h1 : command ≠ "genmove".toList) (h2 : command ≠ "kgs-game_over".toList) :
    k.run C listing command args = ((k.proxy.run C command args).1, { k with proxy := (k.proxy.run C command args).2 }) := by
  unfold Kgs.run
  rw [if_neg h1, if_neg h2]

theorem run_genmove (C : Channel σ) (k : Kgs σ) (listing : Option (List Str)) (args : List Str) :
    k.run C listing "genmove".toList args = (reply (k.handleGenmove C args).1, (k.handleGenmove C args).2) := by
  unfold Kgs.run
  rw [if_pos rfl]

theorem run_gameOver (C : Channel σ) (k : Kgs σ) (listing : Option (List Str)) (args : List Str) :
    k.run C listing "kgs-game_over".toList args = (reply (k.handleGameOver C listing).1, (k.handleGameOver C listing).2) := by
  unfold Kgs.run
  rw [if_neg (by decide), if_pos rfl]

theorem reply_value (r : Option Str) : reply (.value r) = (false, cleanResponse r, false) := rfl
theorem reply_exception (t : Str) : Failure (reply (.exception t)) := ⟨rfl, rfl⟩
theorem reply_gtpError (t : Str) : Failure (reply (.gtpError t)) := ⟨rfl, rfl⟩

/-- C98: genmove with a valid colour is sent on, once, with all its arguments, and the colour is remembered. A successful response is passed on; if the back end gives a failure response,
or can't be reached, the reply is a failure (and the session goes on). With no valid colour nothing is sent, and the reply is a failure. -/
theorem C98_genmove (C : Channel σ) (k : Kgs σ) (listing : Option (List Str)) (args : List Str) :
    let r := k.run C listing "genmove".toList args
    (∀ a rest c, args = a :: rest → ColourWord a c →
      r.2 = { k with myColour := some c, proxy := { k.proxy with ctl := (k.proxy.ctl.doCommand C "genmove".toList args).2 } } ∧
      (∀ s, (k.proxy.ctl.doCommand C "genmove".toList args).1 = .ok s → r.1 = (false, cleanResponse (some s), false)) ∧
      (∀ e, (k.proxy.ctl.doCommand C "genmove".toList args).1 = .error e → Failure r.1)) ∧
    ((∀ a rest c, args = a :: rest → ¬ ColourWord a c) → Failure r.1 ∧ r.2 = k) := by
  intro r
  have hr : r = (reply (k.handleGenmove C args).1, (k.handleGenmove C args).2) := run_genmove C k listing args
  rw [hr]
  constructor
  · rintro a rest c rfl hc
    have hi := (interpretColour_iff a c).2 hc
    unfold Kgs.handleGenmove
    simp only [hi]
    unfold passCommand
    rcases k.proxy.ctl.doCommand C "genmove".toList (a :: rest) with ⟨e | s, ctl⟩
    · cases e <;> simp only <;> exact ⟨rfl, (fun s hs => by cases hs), (fun _ _ => reply_exception _)⟩
    · simp only
      refine ⟨rfl, fun s' hs => ?_, (fun e he => by cases he)⟩
      cases Except.ok.inj hs
      exact reply_value _
  · intro h
    cases args with
    | nil => exact ⟨reply_gtpError _, rfl⟩
    | cons a rest =>
      have hi : Gtp.interpretColour a = none := by
        cases hq : Gtp.interpretColour a with
        | none => rfl
        | some c => exact absurd ((interpretColour_iff a c).1 hq) (h a rest c rfl)
      unfold Kgs.handleGenmove
      simp only [hi]
      exact ⟨reply_gtpError _, trivial⟩

theorem handleGameOver_keeps (C : Channel σ) (k : Kgs σ) (listing : Option (List Str)) :
    (k.handleGameOver C listing).2.myColour = k.myColour ∧ (k.handleGameOver C listing).2.myName = k.myName ∧
    (k.handleGameOver C listing).2.sgfDir = k.sgfDir ∧ (k.handleGameOver C listing).2.template = k.template := by
  obtain ⟨proxy, sgfDir, template, colour, name, log⟩ := k
  unfold Kgs.handleGameOver
  cases sgfDir with
  | none => exact ⟨rfl, rfl, rfl, rfl⟩
  | some dir =>
    cases listing with
    | none => exact ⟨rfl, rfl, rfl, rfl⟩
    | some files =>
      simp only
      cases chooseFilename template files with
      | none => exact ⟨rfl, rfl, rfl, rfl⟩
      | some f =>
        simp only
        split <;> exact ⟨rfl, rfl, rfl, rfl⟩

theorem step_colour (C : Channel σ) (k : Kgs σ) (x : Option (List Str) × Str × List Str) :
    (∀ c, Asks x c → (k.run C x.1 x.2.1 x.2.2).2.myColour = some c) ∧
    ((∀ c, ¬ Asks x c) → (k.run C x.1 x.2.1 x.2.2).2.myColour = k.myColour) ∧ (k.run C x.1 x.2.1 x.2.2).2.myName = k.myName ∧
    (k.run C x.1 x.2.1 x.2.2).2.sgfDir = k.sgfDir ∧ (k.run C x.1 x.2.1 x.2.2).2.template = k.template := by
  obtain ⟨listing, command, args⟩ := x
  simp only
  by_cases h1 : command = "genmove".toList
  · subst h1
    obtain ⟨g1, g2⟩ := C98_genmove C k listing args
    by_cases hv : ∃ a rest c, args = a :: rest ∧ ColourWord a c
    · obtain ⟨a, rest, c, ha, hc⟩ := hv
      have hk := (g1 a rest c ha hc).1
      rw [hk]
      refine ⟨?_, fun hn => absurd ⟨rfl, a, rest, ha, hc⟩ (hn c), rfl, rfl, rfl⟩
      rintro c' ⟨_, a', rest', ha', hc'⟩
      have ha' : args = a' :: rest' := ha'
      rw [ha] at ha'
      cases ha'
      have e1 := (interpretColour_iff a c).2 hc
      have e2 := (interpretColour_iff a c').2 hc'
      exact e1.symm.trans e2
    · have hk := (g2 (fun a rest c ha hc => hv ⟨a, rest, c, ha, hc⟩)).2
      rw [hk]
      exact ⟨fun c ⟨_, a, rest, ha, hc⟩ => absurd ⟨a, rest, c, ha, hc⟩ hv, fun _ => rfl, rfl, rfl, rfl⟩
  · refine ⟨fun c ⟨h, _⟩ => absurd h h1, fun _ => ?_, ?_⟩ <;> unfold Kgs.run <;> rw [if_neg h1] <;> split
    · exact (handleGameOver_keeps C k listing).1
    · rfl
    · exact (handleGameOver_keeps C k listing).2
    · exact ⟨rfl, rfl, rfl⟩

/-- C98: at any time in a session the colour it takes itself to be playing is that of the last genmove with a valid colour; the name, the directory and the template for file names
are those it started with. -/
theorem C98_colour (C : Channel σ) (k : Kgs σ) (l : List (Option (List Str) × Str × List Str)) :
    (∀ c, LastAsked l c → (k.after C l).myColour = some c) ∧ ((∀ x ∈ l, ∀ c, ¬ Asks x c) → (k.after C l).myColour = k.myColour) ∧
    (k.after C l).myName = k.myName ∧ (k.after C l).sgfDir = k.sgfDir ∧ (k.after C l).template = k.template := by
  have happ : ∀ (k : Kgs σ) l₁ l₂, k.after C (l₁ ++ l₂) = (k.after C l₁).after C l₂ := by
    intro k l₁ l₂; unfold Kgs.after; rw [List.foldl_append]
  have hkeep : ∀ (l : List (Option (List Str) × Str × List Str)) (k : Kgs σ), ((∀ x ∈ l, ∀ c, ¬ Asks x c) → (k.after C l).myColour = k.myColour) ∧
      (k.after C l).myName = k.myName ∧ (k.after C l).sgfDir = k.sgfDir ∧ (k.after C l).template = k.template := by
    intro l
    induction l with
    | nil => intro k; exact ⟨fun _ => rfl, rfl, rfl, rfl⟩
    | cons x l ih =>
      intro k
      obtain ⟨_, s2, s3, s4, s5⟩ := step_colour C k x
      obtain ⟨i1, i2, i3, i4⟩ := ih (k.run C x.1 x.2.1 x.2.2).2
      exact ⟨fun h => (i1 (fun y hy => h y (List.mem_cons_of_mem _ hy))).trans (s2 (h x List.mem_cons_self)), i2.trans s3, i3.trans s4, i4.trans s5⟩
  refine ⟨?_, (hkeep l k).1, (hkeep l k).2⟩
  rintro c ⟨l₁, x, l₂, rfl, hx, hn⟩
  rw [happ]
  exact ((hkeep l₂ _).1 hn).trans ((step_colour C (k.after C l₁) x).1 c hx)

theorem choose_free {template : Nat → Str} {files : List Str} {i : Nat} (h : FirstFree template files i) : chooseFilename template files = some (template i) := by
  obtain ⟨h1, h2, h3⟩ := h
  unfold chooseFilename
  have hsplit : List.range 10000 = List.range i ++ i :: List.range' (i + 1) (10000 - (i + 1)) := by
    have e1 : i :: List.range' (i + 1) (10000 - (i + 1)) = List.range' i (10000 - i) := by
      rw [show 10000 - i = (10000 - (i + 1)) + 1 by omega, List.range'_succ]
    rw [e1, List.range_eq_range', List.range_eq_range']
    have e2 := List.range'_append (s := 0) (m := i) (n := 10000 - i) (step := 1)
    rw [show 0 + 1 * i = i by omega, show i + (10000 - i) = 10000 by omega] at e2
    exact e2.symm
  rw [hsplit]
  rw [List.map_append, List.find?_append, List.map_cons]
  have hn : (List.map template (List.range i)).find? (fun f => !files.contains f) = none := by
    rw [List.find?_eq_none]
    intro f hf
    obtain ⟨j, hj, rfl⟩ := List.mem_map.mp hf
    simpa using h3 j (List.mem_range.mp hj)
  rw [hn, List.find?_cons_of_pos (by simpa using h2)]
  rfl

theorem choose_full {template : Nat → Str} {files : List Str} (h : Full template files) : chooseFilename template files = none := by
  unfold chooseFilename
  rw [List.find?_eq_none]
  intro f hf
  obtain ⟨j, hj, rfl⟩ := List.mem_map.mp hf
  simpa using h j (List.mem_range.mp hj)

theorem escape_eq (s : Str) : escapeForSavesgf s = escapedName s := by
  unfold escapeForSavesgf escapedName
  induction s with
  | nil => rfl
  | cons c s ih =>
    rw [List.flatMap_cons, List.flatMap_cons, List.flatMap_append, ih]
    congr 1
    by_cases h : c = '\\'
    · subst h; rfl
    · by_cases h2 : c = ' '
      · subst h2; rfl
      · simp [h, h2]

theorem saveArgs_eq (k : Kgs σ) (path : Str) {l : List Str} (h : PlayerArgs k.myColour k.myName l) : k.saveArgs path = path :: l := by
  unfold Kgs.saveArgs
  rcases h with ⟨h, rfl⟩ | ⟨s, h1, h2, rfl⟩ | ⟨s, h1, h2, rfl⟩
  · rcases h with h | h <;> rw [h]
    cases k.myColour <;> rfl
  · rw [h1, h2, ← escape_eq]; rfl
  · rw [h1, h2, ← escape_eq]; rfl

/-- C98: kgs-game_over. Without --sgf-dir nothing is done. With it, exactly one command is sent to the back end, gomill-savesgf, for a file in the directory with the first of the
names which isn't there yet (so no game record is overwritten), and an argument with the player's name if it and the colour are known; whatever becomes of that command the reply is a success, and
the session goes on. But if the directory can't be read or is full nothing is sent, and the reply is a failure; likewise if the command can't be written as a line of GTP
(see C98_spaces). -/
theorem C98_game_over (C : Channel σ) (k : Kgs σ) (listing : Option (List Str)) (args : List Str) :
    let r := k.run C listing "kgs-game_over".toList args
    (k.sgfDir = none → r = (quietReply, k)) ∧
    ∀ dir, k.sgfDir = some dir →
      (listing = none → Failure r.1 ∧ r.2 = k) ∧
      ∀ files, listing = some files →
        (Full k.template files → Failure r.1 ∧ r.2 = k) ∧
        ∀ i l, FirstFree k.template files i → PlayerArgs k.myColour k.myName l →
          let ctl := k.proxy.ctl
          let sent := pathJoin dir (k.template i) :: l
          r.2.proxy = { k.proxy with ctl := (ctl.doCommand C "gomill-savesgf".toList sent).2 } ∧
          (ctl.closed = false ∧ WordsOK ctl "gomill-savesgf".toList sent → r.1 = quietReply) ∧
          (¬ (ctl.closed = false ∧ WordsOK ctl "gomill-savesgf".toList sent) → Failure r.1 ∧ r.2.proxy.ctl.chan = ctl.chan) := by
  intro r
  have hr : r = (reply (k.handleGameOver C listing).1, (k.handleGameOver C listing).2) := run_gameOver C k listing args
  rw [hr]
  refine ⟨fun h => ?_, fun dir hd => ⟨fun hl => ?_, fun files hl => ⟨fun hf => ?_, fun i l hi hp => ?_⟩⟩⟩
  · unfold Kgs.handleGameOver
    rw [h]
    rfl
  · unfold Kgs.handleGameOver
    rw [hd, hl]
    exact ⟨reply_exception _, rfl⟩
  · unfold Kgs.handleGameOver
    rw [hd, hl]
    simp only [choose_full hf]
    exact ⟨reply_exception _, trivial⟩
  · intro ctl sent
    unfold Kgs.handleGameOver
    rw [hd, hl]
    simp only [choose_free hi]
    have hs : ({ k with sgfDir := some dir, log := k.log ++ ["kgs_proxy: saving game record to ".toList ++ pathJoin dir (k.template i)] } : Kgs σ).saveArgs (pathJoin dir (k.template i)) = sent :=
      saveArgs_eq _ _ hp
    rw [hs]
    unfold handleCommand passCommand
    have hval := doCommand_value C ctl "gomill-savesgf".toList sent
    have hbad : ¬ (ctl.closed = false ∧ WordsOK ctl "gomill-savesgf".toList sent) →
        (ctl.doCommand C "gomill-savesgf".toList sent).1 = .error .value ∧ (ctl.doCommand C "gomill-savesgf".toList sent).2.chan = ctl.chan ∨
        (ctl.doCommand C "gomill-savesgf".toList sent).1 = .error .channelIsClosed ∧ (ctl.doCommand C "gomill-savesgf".toList sent).2.chan = ctl.chan := by
      intro hn
      unfold Ctl.doCommand
      cases hc : ctl.closed with
      | true => exact .inr ⟨rfl, rfl⟩
      | false =>
        have hw : (isWellFormedWord (ctl.translate "gomill-savesgf".toList) && sent.all isWellFormedWord) = false := by
          rw [Bool.eq_false_iff]
          intro h
          rw [Bool.and_eq_true, List.all_eq_true] at h
          exact hn ⟨hc, h⟩
        simp only [Bool.false_eq_true, if_false, hw, Bool.not_false, if_true]
        exact .inl ⟨trivial, trivial⟩
    have hcl : (ctl.doCommand C "gomill-savesgf".toList sent).1 = .error .channelIsClosed → ctl.closed = true := by
      intro h
      unfold Ctl.doCommand at h
      cases hc : ctl.closed with
      | true => rfl
      | false =>
        rw [hc] at h
        simp only [Bool.false_eq_true, if_false] at h
        split at h
        · cases h
        · split at h
          · cases h
          · split at h
            · cases h
            · split at h <;> cases h
    rw [show k.proxy.ctl = ctl from rfl]
    generalize ctl.doCommand C "gomill-savesgf".toList sent = res at *
    obtain ⟨e | s, ctl'⟩ := res
    · cases e with
      | value =>
        simp only
        refine ⟨rfl, fun h => absurd rfl (hval h.2), fun hn => ⟨reply_exception _, ?_⟩⟩
        rcases hbad hn with ⟨_, h⟩ | ⟨h, _⟩
        · exact h
        · cases h
      | channelIsClosed =>
        simp only
        refine ⟨rfl, fun h => ?_, fun hn => ⟨reply_exception _, ?_⟩⟩
        · rw [hcl rfl] at h; cases h.1
        · rcases hbad hn with ⟨h, _⟩ | ⟨_, h⟩
          · cases h
          · exact h
      | badResponse msg m =>
        simp only
        refine ⟨rfl, fun _ => rfl, fun hn => ?_⟩
        rcases hbad hn with ⟨h, _⟩ | ⟨h, _⟩ <;> cases h
      | channel e =>
        simp only
        refine ⟨rfl, fun _ => rfl, fun hn => ?_⟩
        rcases hbad hn with ⟨h, _⟩ | ⟨h, _⟩ <;> cases h
    · simp only
      refine ⟨rfl, fun _ => rfl, fun hn => ?_⟩
      rcases hbad hn with ⟨h, _⟩ | ⟨h, _⟩ <;> cases h

theorem escaped_mem {name : Str} {c : Char} (h : c ∈ name) : c ∈ escapedName name := by
  unfold escapedName
  refine List.mem_flatMap.mpr ⟨c, h, ?_⟩
  split
  · rename_i h; subst h; exact List.mem_cons_self
  · split
    · rename_i h; subst h; exact List.mem_cons_of_mem _ List.mem_cons_self
    · exact List.mem_cons_self

theorem escaped_chars {name : Str} {c : Char} (h : c ∈ escapedName name) : c ∈ name ∨ c = '\\' := by
  unfold escapedName at h
  obtain ⟨d, hd, h⟩ := List.mem_flatMap.mp h
  split at h
  · simp at h; exact .inr h
  · split at h
    · rename_i h2
      rcases List.mem_cons.mp h with rfl | h
      · exact .inr rfl
      · exact .inl (by rw [List.mem_singleton.mp h, ← h2]; exact hd)
    · exact .inl (by rw [List.mem_singleton.mp h]; exact hd)

theorem arg_word (x : Char) (hx : isWordChar x = true) (name : Str) :
    isWellFormedWord (['P', x, '='] ++ escapedName name) = true ↔ ∀ c ∈ name, isWordChar c = true := by
  unfold isWellFormedWord
  rw [Bool.and_eq_true, List.all_eq_true]
  constructor
  · rintro ⟨_, h⟩ c hc
    exact h c (List.mem_append_right _ (escaped_mem hc))
  · intro h
    refine ⟨rfl, fun c hc => ?_⟩
    rcases List.mem_append.mp hc with hc | hc
    · simp only [List.mem_cons, List.not_mem_nil, or_false] at hc
      rcases hc with rfl | rfl | rfl
      · decide
      · exact hx
      · decide
    · rcases escaped_chars hc with hc | rfl
      · exact h c hc
      · decide

/-- C98 (a defect): once genmove has been used, if the engine's name or version has a space in it (such as `GNU Go`) then no game record is ever saved: kgs-game_over sends nothing and
replies with a failure.  (The documented way to write a space in an argument of gomill-savesgf is `\_`, but the script writes a backslash and a space.) -/
theorem C98_spaces (C : Channel σ) (k : Kgs σ) (listing : Option (List Str)) (args : List Str) {c : Colour} {name dir : Str}
    (hd : k.sgfDir = some dir) (hc : k.myColour = some c) (hn : k.myName = some name) (hsp : ' ' ∈ name) :
    Failure (k.run C listing "kgs-game_over".toList args).1 ∧ (k.run C listing "kgs-game_over".toList args).2.proxy.ctl.chan = k.proxy.ctl.chan := by
  obtain ⟨_, h⟩ := C98_game_over C k listing args
  obtain ⟨h1, h2⟩ := h dir hd
  cases hl : listing with
  | none => rw [hl] at h1; obtain ⟨a, b⟩ := h1 rfl; exact ⟨a, by rw [b]⟩
  | some files =>
    obtain ⟨h3, h4⟩ := h2 files hl
    rw [hl] at h3 h4
    by_cases hf : Full k.template files
    · obtain ⟨a, b⟩ := h3 hf
      exact ⟨a, by rw [b]⟩
    · have hex : ∃ i, i < 10000 ∧ k.template i ∉ files := by
        unfold Full at hf
        push Not at hf
        exact hf
      have hfree : FirstFree k.template files (Nat.find hex) :=
        ⟨(Nat.find_spec hex).1, (Nat.find_spec hex).2, fun j hj => by
          have := Nat.find_min hex hj
          by_contra hj'
          exact this ⟨lt_trans hj (Nat.find_spec hex).1, hj'⟩⟩
      have hbadword : ∀ x, isWordChar x = true → isWellFormedWord (['P', x, '='] ++ escapedName name) ≠ true := by
        intro x hx hw
        have := (arg_word x hx name).1 hw ' ' hsp
        exact absurd this (by decide)
      cases c with
      | b =>
        obtain ⟨_, _, h5⟩ := h4 _ ["PB=".toList ++ escapedName name] hfree (.inr (.inl ⟨name, hc, hn, rfl⟩))
        exact h5 (fun hw => hbadword 'B' (by decide) (hw.2.2 _ (List.mem_cons_of_mem _ List.mem_cons_self)))
      | w =>
        obtain ⟨_, _, h5⟩ := h4 _ ["PW=".toList ++ escapedName name] hfree (.inr (.inr ⟨name, hc, hn, rfl⟩))
        exact h5 (fun hw => hbadword 'W' (by decide) (hw.2.2 _ (List.mem_cons_of_mem _ List.mem_cons_self)))

/-- C98: otherwise (the name, the directory and the file names consist of printable characters) the command can be written as a line of GTP. -/
theorem C98_words (ctl : Ctl σ) (ha : ctl.aliases.lookup "gomill-savesgf".toList = none) {colour : Option Colour} {name : Option Str} {l : List Str}
    (hp : PlayerArgs colour name l) (hn : ∀ s, name = some s → ∀ c ∈ s, (0x21 ≤ c.toNat ∧ c.toNat ≤ 0x7e) ∨ (0x80 ≤ c.toNat ∧ c.toNat ≤ 0xff))
    {path : Str} (hne : path ≠ []) (hpath : ∀ c ∈ path, (0x21 ≤ c.toNat ∧ c.toNat ≤ 0x7e) ∨ (0x80 ≤ c.toNat ∧ c.toNat ≤ 0xff)) :
    WordsOK ctl "gomill-savesgf".toList (path :: l) := by
  have hchar : ∀ c : Char, ((0x21 ≤ c.toNat ∧ c.toNat ≤ 0x7e) ∨ (0x80 ≤ c.toNat ∧ c.toNat ≤ 0xff)) → isWordChar c = true := by
    intro c h
    unfold isWordChar
    simp only [Bool.or_eq_true, Bool.and_eq_true, decide_eq_true_eq]
    exact h
  refine ⟨?_, ?_⟩
  · unfold Ctl.translate
    rw [ha]
    decide
  · intro a hm
    rcases List.mem_cons.mp hm with rfl | hm
    · unfold isWellFormedWord
      rw [Bool.and_eq_true, List.all_eq_true]
      exact ⟨by simpa using hne, fun c hc => hchar c (hpath c hc)⟩
    · rcases hp with ⟨_, rfl⟩ | ⟨s, _, h2, rfl⟩ | ⟨s, _, h2, rfl⟩
      · cases hm
      · rw [List.mem_singleton.mp hm]
        exact (arg_word 'B' (by decide) s).2 (fun c hc => hchar c (hn s h2 c hc))
      · rw [List.mem_singleton.mp hm]
        exact (arg_word 'W' (by decide) s).2 (fun c hc => hchar c (hn s h2 c hc))

theorem normalised_self {s : Str} (h : ∀ c ∈ s, isWordChar c = true) : Sgf.Normalised true s s := by
  induction s with
  | nil => exact .nil
  | cons c s ih =>
    have hc := h c List.mem_cons_self
    have hns : ∀ d : Char, isWordChar d = false → c ≠ d := by rintro d hd rfl; rw [hd] at hc; cases hc
    have hsp : Sgf.spaceFor c = c := by
      unfold Sgf.spaceFor
      rw [if_neg]
      intro h
      simp only [List.mem_cons, List.not_mem_nil, or_false] at h
      rcases h with h | h | h
      · exact hns '\t' (by decide) h
      · exact hns _ (by decide) h
      · exact hns _ (by decide) h
    have := Sgf.Normalised.char (simple := true) (c := c) (hns '\n' (by decide)) (hns '\r' (by decide)) (ih (fun d hd => h d (List.mem_cons_of_mem _ hd)))
    rwa [hsp] at this

theorem escaped_encode {name : Str} (h : ∀ c ∈ name, isWordChar c = true) : escapedName name = encodeArg name := by
  unfold escapedName encodeArg
  refine List.flatMap_congr (fun c hc => ?_)
  have : c ≠ ' ' := by rintro rfl; exact absurd (h _ hc) (by decide)
  rw [if_neg this, if_neg this]

/-- C98: if the back end is a gomill engine (gtp_states), in a state which can be saved, and the name has no backslash followed by an underscore (see C56), then the record it saves
has that name as the player of that colour. -/
theorem C98_recorded {V : SaveEnv} (hN : Sgf.NamesOK V.encodings) (hE : V.encodings.normalise "UTF-8".toList = some "UTF-8".toList)
    (hEc : V.encodings.codec "UTF-8".toList = Sgf.utf8Codec) (isFloat : Rat → Prop) (hFl : Sgf.FloatsOK V.floats isFloat)
    {n : Nat} {s : GS} (hs : Saveable isFloat n s) {path : Str} (hw : ∀ t, V.canWrite path t = true)
    {colour : Colour} {name : Str} {l : List Str} (hp : PlayerArgs (some colour) (some name) l) (hname : ∀ c ∈ name, isWordChar c = true) (hbu : ¬ BackslashUnderscore name) :
    ∃ text, s.savesgf V (path :: l) = ((s, .value none), some (path, text)) ∧
      ∀ M : Sgf.Lib, ∃ M' g root nodes, M.fromString V.encodings V.floats text none = .ok M' ∧ M'.games = M.games ++ [g] ∧ M'.mainSequence g = root :: nodes ∧
        (∃ b, M'.getSetupAndMoves g = .ok (b, s.moves) ∧ b.pos = s.base.pos) ∧
        ∃ raw, Sgf.lookup root ['P', if colour = .b then 'B' else 'W'] = some [raw] ∧ Sgf.simpletextValue raw = name := by
  have key : ∀ x : Char, x = 'B' ∨ x = 'W' → l = [['P', x, '='] ++ escapedName name] →
      ∃ text, s.savesgf V (path :: l) = ((s, .value none), some (path, text)) ∧
      ∀ M : Sgf.Lib, ∃ M' g root nodes, M.fromString V.encodings V.floats text none = .ok M' ∧ M'.games = M.games ++ [g] ∧ M'.mainSequence g = root :: nodes ∧
        (∃ b, M'.getSetupAndMoves g = .ok (b, s.moves) ∧ b.pos = s.base.pos) ∧
        ∃ raw, Sgf.lookup root ['P', x] = some [raw] ∧ Sgf.simpletextValue raw = name := by
    intro x hx hl
    have hx2 : List.Forall₂ ExtraArg l [(['P', x], name)] := by
      rw [hl]
      refine .cons ⟨['P', x], ?_, Nat.le_add_left _ _, Nat.le_of_ble_eq_true rfl, ?_, ?_, hbu⟩ .nil
      · rw [escaped_encode hname]; rfl
      · rcases hx with rfl | rfl <;> decide
      · rcases hx with rfl | rfl <;> rfl
    obtain ⟨text, h1, h2⟩ := C56_file hN hE hEc isFloat hFl hs (path := path) hx2 (by
      intro y hy
      rw [List.mem_singleton.mp hy]
      show ['P', x] ∉ reservedIdents
      rcases hx with rfl | rfl <;> decide) hw
    refine ⟨text, h1, fun M => ?_⟩
    obtain ⟨M', g, root, nodes, a1, a2, a3, a4, ⟨b, a5, _, a6⟩, a7, _⟩ := h2 M
    obtain ⟨raw, b1, _, b3⟩ := a7 ['P', x] name ⟨[], [], rfl, by intro y hy; cases hy⟩ (by rcases hx with rfl | rfl <;> decide) (by rcases hx with rfl | rfl <;> decide)
      (by rcases hx with rfl | rfl <;> decide)
    exact ⟨M', g, root, nodes, a1, a2, a4, ⟨b, a5, a6⟩, raw, b1, (b3 name).2 (normalised_self hname)⟩
  rcases hp with ⟨h | h, _⟩ | ⟨s', h1, h2, h3⟩ | ⟨s', h1, h2, h3⟩
  · cases h
  · cases h
  · cases h1; cases h2; exact key 'B' (.inl rfl) h3
  · cases h1; cases h2; exact key 'W' (.inr rfl) h3

theorem before_prefix (sep : Str) : ∀ (s v : Str), beforeText sep s = some v → v <+: s
  | [], v, h => by
    unfold beforeText at h
    split at h <;> cases h
    exact List.prefix_rfl
  | c :: r, v, h => by
    unfold beforeText at h
    split at h
    · cases h; exact List.nil_prefix
    · obtain ⟨w, hw, rfl⟩ := Option.map_eq_some_iff.mp h
      exact (List.prefix_cons_inj c).2 (before_prefix sep r w hw)

theorem rstrip_prefix (s : Str) : rstrip s <+: s := by
  unfold rstrip
  rw [← List.reverse_suffix, List.reverse_reverse]
  exact List.dropWhile_suffix _

theorem shorten_length (name version : Str) : (shortenVersion name version).length ≤ 32 := by
  unfold shortenVersion
  simp only
  exact (rstrip_prefix _).length_le.trans (by rw [List.length_take]; exact Nat.min_le_left _ _)

theorem shorten_infix (name version : Str) : shortenVersion name version <:+: version := by
  unfold shortenVersion
  simp only
  have h1 : (if (lower name).isPrefixOf (lower version) then lstrip (version.drop name.length) else version) <:+ version := by
    split
    · unfold lstrip
      exact (List.dropWhile_suffix _).trans (List.drop_suffix _ _)
    · exact List.suffix_rfl
  generalize (if (lower name).isPrefixOf (lower version) then lstrip (version.drop name.length) else version) = w at h1
  have h2 : (beforeText ". Please read http:".toList w).getD w <+: w := by
    cases hb : beforeText ". Please read http:".toList w with
    | none => exact List.prefix_rfl
    | some v => exact before_prefix _ _ _ hb
  exact ((rstrip_prefix _).trans ((List.take_prefix _ _).trans h2)).isInfix.trans h1.isInfix

/-- C98: starting. It starts only if the back end can be asked for its commands and, with --sgf-dir, knows gomill-savesgf.  The name is the back end's response to `name` (if it isn't a failure),
followed (if the response to `version` isn't a failure) by a colon and at most 32 characters, which are a part of that response. -/
theorem C98_start (C : Channel σ) (ctl : Ctl σ) (sgfDir : Option Str) (template : Nat → Str) {k : Kgs σ} (h : Kgs.start C ctl sgfDir template = .ok k) :
    k.sgfDir = sgfDir ∧ k.template = template ∧ k.myColour = none ∧
    (∀ c, k.proxy.Has c ↔ c = "genmove".toList ∨ c = "kgs-game_over".toList ∨ ∃ p ctl', setBackEnd C ctl = (.ok p, ctl') ∧ p.Has c) ∧
    (sgfDir ≠ none → ∃ p ctl' ctl'', setBackEnd C ctl = (.ok p, ctl') ∧ backEndHasCommand C p.ctl "gomill-savesgf".toList = (.ok true, ctl'')) ∧
    ∃ before : Ctl σ, match (before.doCommand C "name".toList []) with
      | (.error _, after) => k.myName = none ∧ k.proxy.ctl = after
      | (.ok name, after) => match (after.doCommand C "version".toList []) with
        | (.error _, after') => k.myName = some name ∧ k.proxy.ctl = after'
        | (.ok version, after') => (∃ v, k.myName = some (name ++ ':' :: v) ∧ v.length ≤ 32 ∧ v <:+: version) ∧ k.proxy.ctl = after' := by
  unfold Kgs.start at h
  rcases hb : setBackEnd C ctl with ⟨e | p, ctl1⟩ <;> rw [hb] at h <;> simp only at h
  · cases h
  rcases hl : lacksSavesgf C sgfDir p.ctl with ⟨e | b, ctl2⟩ <;> rw [hl] at h <;> try simp only at h
  · cases h
  cases b with
  | true => cases h
  | false =>
    simp only at h
    rcases hi : initialiseName C ctl2 with ⟨e | name, ctl3⟩ <;> rw [hi] at h <;> simp only at h
    · cases h
    cases Except.ok.inj h
    refine ⟨rfl, rfl, rfl, ?_, ?_, ctl2, ?_⟩
    · intro c
      have hs : ∀ c, (withCommands p).Has c ↔ c = "genmove".toList ∨ c = "kgs-game_over".toList ∨ p.Has c := by
        intro c
        unfold Proxy.Has withCommands Proxy.addCommand
        simp only [List.lookup_cons]
        by_cases h1 : c = "kgs-game_over".toList
        · subst h1
          simp
        · rw [beq_eq_false_iff_ne.2 h1]
          by_cases h2 : c = "genmove".toList
          · subst h2
            simp
          · rw [beq_eq_false_iff_ne.2 h2]
            exact ⟨fun h => .inr (.inr h), fun h => h.elim (fun h => absurd h h2) (fun h => h.elim (fun h => absurd h h1) id)⟩
      rw [show ({ withCommands p with ctl := ctl3 } : Proxy σ).Has c ↔ (withCommands p).Has c from Iff.rfl, hs c]
      constructor
      · rintro (h | h | h)
        · exact .inl h
        · exact .inr (.inl h)
        · exact .inr (.inr ⟨p, ctl1, rfl, h⟩)
      · rintro (h | h | ⟨p', ctl', he, h⟩)
        · exact .inl h
        · exact .inr (.inl h)
        · obtain ⟨he, _⟩ := Prod.mk.inj he
          cases Except.ok.inj he
          exact .inr (.inr h)
    · intro hd
      cases hdir : sgfDir with
      | none => exact absurd hdir hd
      | some dir =>
        rw [hdir] at hl
        unfold lacksSavesgf at hl
        simp only at hl
        rcases hk : backEndHasCommand C p.ctl "gomill-savesgf".toList with ⟨e | b, ctl4⟩ <;> rw [hk] at hl <;> simp only at hl
        · cases (Prod.mk.inj hl).1
        · obtain ⟨h1, _⟩ := Prod.mk.inj hl
          have h1 := Except.ok.inj h1
          cases b with
          | true => exact ⟨p, ctl1, ctl4, rfl, hk⟩
          | false => cases h1
    · unfold initialiseName passCommand at hi
      generalize ctl2.doCommand C "name".toList [] = r1 at hi ⊢
      obtain ⟨e | name1, ctl4⟩ := r1
      · cases e <;> simp only at hi <;> obtain ⟨h1, h2⟩ := Prod.mk.inj hi <;> cases h1
        exact ⟨rfl, h2.symm⟩
      · simp only at hi ⊢
        generalize ctl4.doCommand C "version".toList [] = r2 at hi ⊢
        obtain ⟨e | version, ctl5⟩ := r2
        · cases e <;> simp only at hi <;> obtain ⟨h1, h2⟩ := Prod.mk.inj hi <;> cases h1
          exact ⟨rfl, h2.symm⟩
        · simp only at hi ⊢
          obtain ⟨h1, h2⟩ := Prod.mk.inj hi
          cases Except.ok.inj h1
          exact ⟨⟨_, rfl, shorten_length _ _, shorten_infix _ _⟩, h2.symm⟩

/-! ### an example -/

/-- An engine whose state is the list of the commands it's had (with their arguments). -/
def exampleBack (l : List Str) (command : Str) (args : List Str) : (Bool × Str × Bool) × List Str :=
  let l := l ++ [command ++ args.flatMap (' ' :: ·)]
  if command = "list_commands".toList then ((false, "genmove\ngomill-savesgf\nlist_commands\nname\nquit\nversion".toList, false), l)
  else if command = "known_command".toList then ((false, "true".toList, false), l)
  else if command = "name".toList then ((false, "Foo\\bar".toList, false), l)
  else if command = "version".toList then ((false, "foo\\BAR 1.2.3".toList, false), l)
  else if command = "genmove".toList then (if l.length < 9 then (false, "C3".toList, false) else (true, "no".toList, false), l)
  else ((false, [], false), l)

def exampleTemplate (i : Nat) : Str := strInt i ++ ".sgf".toList

def exampleStart (sgfDir : Option Str) : Except Stop (Kgs (Internal (List Str))) :=
  Kgs.start (internalChannel exampleBack) (Ctl.init ⟨[], [], false⟩ "back end".toList) sgfDir exampleTemplate

def exampleListing : Option (List Str) := some ["2.sgf".toList, "0.sgf".toList, "x".toList, "1.sgf".toList, "4.sgf".toList]

def exampleCommands : List (Option (List Str) × Str × List Str) :=
  [(none, "genmove".toList, ["BLACK".toList]), (none, "genmove".toList, ["W".toList]), (none, "genmove".toList, ["x".toList]), (exampleListing, "kgs-game_over".toList, [])]

/-- The engine's commands in a session, what's logged, and the last colour. -/
def exampleSession (sgfDir : Option Str) (l : List (Option (List Str) × Str × List Str)) : Option (List String × List String × Option Colour) :=
  (exampleStart sgfDir).toOption.map (fun k =>
    let k := k.after (internalChannel exampleBack) l
    (k.proxy.ctl.chan.engine.map String.ofList, k.log.map String.ofList, k.myColour))

theorem C98_witness : (exampleStart (some "d".toList)).toOption.map (·.myName.map String.ofList) = some (some "Foo\\bar:1.2.3") ∧
    exampleSession (some "d".toList) exampleCommands = some (["list_commands", "known_command gomill-savesgf", "name", "version", "genmove BLACK", "genmove W",
      "gomill-savesgf d/3.sgf PW=Foo\\\\bar:1.2.3"], ["kgs_proxy: saving game record to d/3.sgf"], some .w) ∧
    exampleSession none exampleCommands = some (["list_commands", "name", "version", "genmove BLACK", "genmove W"], [], some .w) ∧
    shortenVersion "Foo".toList "foo  1.2. Please read http://x".toList = "1.2".toList ∧
    LastAsked exampleCommands .w ∧ FirstFree exampleTemplate (exampleListing.getD []) 3 := by
  refine ⟨by decide +kernel, by decide +kernel, by decide +kernel, by decide +kernel, ?_, ?_⟩
  · refine ⟨[(none, "genmove".toList, ["BLACK".toList])], (none, "genmove".toList, ["W".toList]), [(none, "genmove".toList, ["x".toList]), (exampleListing, "kgs-game_over".toList, [])], rfl, ?_, ?_⟩
    · exact ⟨rfl, "W".toList, [], rfl, .inr ⟨rfl, .inl (by decide +kernel)⟩⟩
    · intro y hy c'
      simp only [List.mem_cons, List.not_mem_nil, or_false] at hy
      rcases hy with rfl | rfl
      · rintro ⟨_, a, rest, he, hw⟩
        injection he with h1 h2
        subst h1
        unfold ColourWord at hw
        revert hw
        cases c' <;> decide +kernel
      · rintro ⟨h, _⟩
        exact absurd h (by decide +kernel)
  · unfold FirstFree; decide +kernel

end Gomill.Kgs
