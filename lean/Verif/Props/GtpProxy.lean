import Verif.Model.GtpProxy
import Verif.Props.GtpRead
import Verif.Props.Gtp
import Verif.Props.GtpController
import Verif.Props.SgfText
/-
C61: Gtp_proxy.
-/
namespace Gomill.Gtp
open Py

variable {σ : Type}

/-! ### The proxy's commands -/

/-- The commands the proxy answers itself, whatever the back end has. -/
def ownCommands : List Str :=
  ["known_command".toList, "list_commands".toList, "protocol_version".toList, "quit".toList, "gomill-passthrough".toList]

/-- The commands listed in a response to list_commands: what is on each line, if it can be a command. -/
def IsListed (response c : Str) : Prop := ∃ line ∈ splitOn '\n' response, c = strip line ∧ isWellFormedWord c = true

/-- The proxy has this command. -/
def Proxy.Has (p : Proxy σ) (c : Str) : Prop := ∃ h, p.handlers.lookup c = some h

/-- The proxy sends this command on to the back end. -/
def Proxy.Forwards (p : Proxy σ) (c : Str) : Prop := ∃ h, p.handlers.lookup c = some h ∧ h = .forward c

theorem lookup_forward (cmds : List Str) (c : Str) :
    (cmds.map (fun c => (c, (Handler.forward c : Handler σ)))).lookup c = if c ∈ cmds then some (.forward c) else none := by
  induction cmds with
  | nil => rfl
  | cons d cmds ih =>
    simp only [List.map_cons, List.lookup_cons, ih, List.mem_cons]
    by_cases h : c = d
    · subst h; simp
    · have : (c == d) = false := by simpa using h
      simp [this, h]

theorem makeProxy_lookup (ctl : Ctl σ) (cmds : List Str) (c : Str) :
    (makeProxy ctl cmds).handlers.lookup c =
      if c = "gomill-passthrough".toList then some .passthrough
      else if c = "quit".toList then some .proxyQuit
      else if c = "protocol_version".toList then some .protocolVersion
      else if c = "list_commands".toList then some .listCommands
      else if c = "known_command".toList then some .knownCommand
      else if c ∈ cmds then some (.forward c) else none := by
  unfold makeProxy
  simp only [List.cons_append, List.nil_append, List.lookup_cons, lookup_forward]
  by_cases h1 : c = "gomill-passthrough".toList
  · subst h1; rfl
  · by_cases h2 : c = "quit".toList
    · subst h2; rfl
    · by_cases h3 : c = "protocol_version".toList
      · subst h3; rfl
      · by_cases h4 : c = "list_commands".toList
        · subst h4; rfl
        · by_cases h5 : c = "known_command".toList
          · subst h5; rfl
          · simp only [beq_eq_false_iff_ne.2 h1, beq_eq_false_iff_ne.2 h2, beq_eq_false_iff_ne.2 h3, beq_eq_false_iff_ne.2 h4,
              beq_eq_false_iff_ne.2 h5, if_neg h1, if_neg h2, if_neg h3, if_neg h4, if_neg h5]

theorem makeProxy_own (ctl : Ctl σ) (cmds : List Str) :
    (makeProxy ctl cmds).handlers.lookup "gomill-passthrough".toList = some .passthrough ∧
    (makeProxy ctl cmds).handlers.lookup "quit".toList = some .proxyQuit ∧
    (makeProxy ctl cmds).handlers.lookup "protocol_version".toList = some .protocolVersion ∧
    (makeProxy ctl cmds).handlers.lookup "list_commands".toList = some .listCommands ∧
    (makeProxy ctl cmds).handlers.lookup "known_command".toList = some .knownCommand := by
  refine ⟨?_, ?_, ?_, ?_, ?_⟩ <;> rw [makeProxy_lookup]
  · rfl
  · rfl
  · rfl
  · rfl
  · rfl

theorem makeProxy_forwards (ctl : Ctl σ) (cmds : List Str) (c : Str) :
    (makeProxy ctl cmds).Forwards c ↔ c ∈ cmds ∧ c ∉ ownCommands := by
  unfold Proxy.Forwards
  rw [makeProxy_lookup]
  unfold ownCommands
  simp only [List.mem_cons, List.not_mem_nil, or_false, not_or]
  by_cases h1 : c = "gomill-passthrough".toList
  · rw [if_pos h1]; simp [h1]
  · rw [if_neg h1]
    by_cases h2 : c = "quit".toList
    · rw [if_pos h2]; simp [h2]
    · rw [if_neg h2]
      by_cases h3 : c = "protocol_version".toList
      · rw [if_pos h3]; simp [h3]
      · rw [if_neg h3]
        by_cases h4 : c = "list_commands".toList
        · rw [if_pos h4]; simp [h4]
        · rw [if_neg h4]
          by_cases h5 : c = "known_command".toList
          · rw [if_pos h5]; simp [h5]
          · rw [if_neg h5]
            by_cases h6 : c ∈ cmds
            · rw [if_pos h6]
              exact ⟨fun _ => ⟨h6, h5, h4, h3, h2, h1⟩, fun _ => ⟨_, rfl, rfl⟩⟩
            · rw [if_neg h6]; simp [h6]

theorem makeProxy_has (ctl : Ctl σ) (cmds : List Str) (c : Str) :
    (makeProxy ctl cmds).Has c ↔ c ∈ cmds ∨ c ∈ ownCommands := by
  unfold Proxy.Has
  rw [makeProxy_lookup]
  unfold ownCommands
  simp only [List.mem_cons, List.not_mem_nil, or_false]
  split
  · rename_i h; simp [h]
  · split
    · rename_i h; simp [h]
    · split
      · rename_i h; simp [h]
      · split
        · rename_i h; simp [h]
        · split
          · rename_i h; simp [h]
          · split
            · rename_i h; simp [h]
            · rename_i h1 h2 h3 h4 h5 h6
              simp [h6]
              refine ⟨?_, ?_, ?_, ?_, ?_⟩ <;> assumption

/-- C61: the proxy starts with the commands the back end lists and its own five; those of the back end which aren't among the five are
forwarded. If the back end can't be asked, or gives a failure response, BackEndError is raised (with the same message). -/
theorem C61_start (C : Channel σ) (ctl : Ctl σ) :
    (∀ response ctl', ctl.doCommand C "list_commands".toList [] = (.ok response, ctl') →
      ∃ p, setBackEnd C ctl = (.ok p, ctl') ∧ p.ctl = ctl' ∧
        (∀ c, p.Has c ↔ IsListed response c ∨ c ∈ ownCommands) ∧
        (∀ c, p.Forwards c ↔ IsListed response c ∧ c ∉ ownCommands)) ∧
    (∀ e ctl', ctl.doCommand C "list_commands".toList [] = (.error (.channel e), ctl') →
      setBackEnd C ctl = (.error (.backEnd e.msg (some (.channel e))), ctl')) ∧
    (∀ msg m ctl', ctl.doCommand C "list_commands".toList [] = (.error (.badResponse msg m), ctl') →
      setBackEnd C ctl = (.error (.backEnd msg (some (.badResponse msg m))), ctl')) := by
  refine ⟨?_, ?_, ?_⟩
  · intro response ctl' h
    have hl : ∀ c, c ∈ ((splitOn '\n' response).map strip).filter isWellFormedWord ↔ IsListed response c := by
      intro c
      unfold IsListed
      simp only [List.mem_filter, List.mem_map]
      constructor
      · rintro ⟨⟨l, h1, h2⟩, h3⟩; exact ⟨l, h1, h2.symm, h3⟩
      · rintro ⟨l, h1, h2, h3⟩; exact ⟨⟨l, h1, h2.symm⟩, h3⟩
    refine ⟨makeProxy ctl' (((splitOn '\n' response).map strip).filter isWellFormedWord), ?_, rfl, ?_, ?_⟩
    · simp only [setBackEnd, Ctl.listCommands, h]
    · intro c; rw [makeProxy_has, hl]
    · intro c; rw [makeProxy_forwards, hl]
  · intro e ctl' h
    simp only [setBackEnd, Ctl.listCommands, h]
  · intro msg m ctl' h
    simp only [setBackEnd, Ctl.listCommands, h]

theorem lookup_filter_ne {α : Type} (l : List (Str × α)) (c d : Str) :
    (l.filter (fun x => x.1 ≠ d)).lookup c = if c = d then none else l.lookup c := by
  induction l with
  | nil => simp
  | cons x l ih =>
    obtain ⟨k, v⟩ := x
    by_cases hk : k = d
    · subst hk
      rw [List.filter_cons_of_neg (by simp), ih, List.lookup_cons]
      by_cases hc : c = k
      · subst hc; simp
      · rw [if_neg hc, if_neg hc, beq_eq_false_iff_ne.2 hc]
    · rw [List.filter_cons_of_pos (by simpa using hk), List.lookup_cons, List.lookup_cons, ih]
      by_cases hc : c = k
      · subst hc; simp [hk]
      · rw [beq_eq_false_iff_ne.2 hc]

/-- C61: adding a command replaces any handler with the same name, and no other; removing one hides it, and no other. -/
theorem C61_add_remove (p : Proxy σ) (c : Str) (h : Handler σ) :
    (p.addCommand c h).handlers.lookup c = some h ∧ ¬ (p.removeCommand c).Has c ∧
    (∀ d, d ≠ c → (p.addCommand c h).handlers.lookup d = p.handlers.lookup d ∧
      (p.removeCommand c).handlers.lookup d = p.handlers.lookup d) := by
  refine ⟨by simp [Proxy.addCommand], ?_, ?_⟩
  · rintro ⟨h, hh⟩
    unfold Proxy.removeCommand at hh
    rw [lookup_filter_ne] at hh
    simp at hh
  · intro d hd
    refine ⟨?_, ?_⟩
    · unfold Proxy.addCommand
      simp only [List.lookup_cons, beq_eq_false_iff_ne.2 hd]
    · unfold Proxy.removeCommand
      rw [lookup_filter_ne, if_neg hd]

/-! ### Texts which go through unchanged -/

theorem replaceBlankLines_id {s : Str} (h : ¬ "\n\n".toList <:+: s) : replaceBlankLines s = s := by
  induction s with
  | nil => rfl
  | cons c s ih =>
    have hs : ¬ "\n\n".toList <:+: s := fun h0 => h (h0.trans ⟨[c], [], by simp⟩)
    cases s with
    | nil => rw [replaceBlankLines.eq_def]; split <;> simp_all
    | cons d s =>
      rw [replaceBlankLines.eq_def]
      split
      · rename_i heq
        simp only [List.cons.injEq] at heq
        obtain ⟨rfl, rfl, rfl⟩ := heq
        exact absurd ⟨[], _, rfl⟩ h
      · rename_i heq
        simp only [List.cons.injEq] at heq
        obtain ⟨rfl, rfl⟩ := heq
        rw [ih hs]
      · simp_all

theorem rstrip_id {s : Str} (h : ∀ c, s.getLast? = some c → isSpace c = false) : rstrip s = s := by
  have := rstrip_spaces (s := s) (t := []) h (by simp)
  simpa using this

theorem clean_good_id {t : Str} (h : Good t) : cleanResponse (some t) = t := by
  rw [cleanResponse_of_noControl h.noControl, rstrip_id h.last, replaceBlankLines_id h.noBlank]
  exact map_untab_id h.noTab

theorem Tidy.good {t : Str} (h : Tidy t) : Good t :=
  ⟨fun c hc => (h.noControl c hc).1, fun hc => (h.noControl _ hc).2 rfl, h.noEmpty, h.last⟩

/-- What the client is told, for a response of the back end: the same text, tidied up; and "unspecified error" for a failure
response with no text. -/
def relayed (isFailure : Bool) (response : Str) : Str :=
  cleanResponse (some (if isFailure ∧ response = [] then "unspecified error".toList else response))

/-- C61: a response read from a process (or any channel which reads lines) is passed on unchanged, unless it's a failure response with
no text; and the client reads the same response as the proxy did. -/
theorem C61_unchanged (first : Bool) (inp : Str) (f : Bool) (r rest : Str) (h : getResponse first inp = (.ok (f, r), rest)) :
    (f = false ∨ r ≠ [] → relayed f r = r) ∧ relayed true [] = "unspecified error".toList ∧
    ∀ more, getResponse false (Spec.responseText f none r ++ more) = (.ok (f, r), more) := by
  have ht := C60_tidy first inp f r rest h
  refine ⟨?_, ?_, ?_⟩
  · intro hf
    unfold relayed
    rw [if_neg (by rcases hf with rfl | hf <;> simp_all), clean_good_id ht.good]
  · decide +kernel
  · intro more
    rw [getResponse_responseText false f ht.good more]
    congr 3
    unfold lstripBlank
    cases r with
    | nil => rfl
    | cons c r =>
      have h1 := ht.head
      have h2 := (ht.noControl c (by simp)).2
      have : isBlank c = false := by
        unfold isBlank
        simp at h1
        simp [h1, h2]
      simp [this]

/-! ### Forwarded commands -/

theorem doCommand_ok (C : Channel σ) (c : Ctl σ) (command : Str) (args : List Str) (hc : c.closed = false) (hw : WordsOK c command args)
    {ch1 ch2 : σ} {f : Bool} {r : Str} (hs : C.send (c.translate command) args c.chan = (.ok (), ch1)) (hr : C.recv ch1 = (.ok (f, r), ch2)) :
    c.doCommand C command args =
      (if f then .error (.badResponse (failureMessage (formatCommand c.isFirst (c.translate command) args) c.name r) (some r)) else .ok r,
        { c with isFirst := false, chan := ch2 }) := by
  have hwb : (isWellFormedWord (c.translate command) && args.all isWellFormedWord) = true := by
    rw [hw.1, Bool.true_and, List.all_eq_true]; exact hw.2
  unfold Ctl.doCommand
  simp only [hc, Bool.false_eq_true, if_false, hwb, Bool.not_true, hs, hr]
  cases f <;> rfl

theorem doCommand_broken (C : Channel σ) (c : Ctl σ) (command : Str) (args : List Str) (hc : c.closed = false) (hw : WordsOK c command args)
    {ch : σ} {e : ChErr} (h : C.send (c.translate command) args c.chan = (.error e, ch) ∨
      ∃ ch1, C.send (c.translate command) args c.chan = (.ok (), ch1) ∧ C.recv ch1 = (.error e, ch)) :
    ∃ sending, c.doCommand C command args =
      (.error (.channel ⟨e.kind, channelMessage sending (formatCommand c.isFirst (c.translate command) args) c.name e⟩),
        { c with isFirst := false, chan := ch, bad := true }) := by
  have hwb : (isWellFormedWord (c.translate command) && args.all isWellFormedWord) = true := by
    rw [hw.1, Bool.true_and, List.all_eq_true]; exact hw.2
  unfold Ctl.doCommand
  rcases h with h | ⟨ch1, h1, h2⟩
  · exact ⟨true, by simp only [hc, Bool.false_eq_true, if_false, hwb, Bool.not_true, h]⟩
  · exact ⟨false, by simp only [hc, Bool.false_eq_true, if_false, hwb, Bool.not_true, h1, h2]⟩

theorem channelMessage_ne (sending : Bool) (formatted name : Str) (e : ChErr) : channelMessage sending formatted name e ≠ [] := by
  unfold channelMessage
  split <;> simp

theorem run_of_lookup (C : Channel σ) (p : Proxy σ) {c : Str} {args : List Str} {h : Handler σ} (hl : p.handlers.lookup c = some h) :
    p.run C c args = ((p.engine C).runCommand c args, { p with ctl := (h.call C p args).2 }) ∧
    (p.engine C).handlers c = some (fun args => (h.call C p args).1) := by
  refine ⟨?_, ?_⟩
  · unfold Proxy.run; rw [hl]
  · unfold Proxy.engine; simp only [hl, Option.map_some]

theorem runCommand_call (C : Channel σ) (p : Proxy σ) {c : Str} {args : List Str} {h : Handler σ} (hl : p.handlers.lookup c = some h) :
    (p.engine C).runCommand c args = (match (match (h.call C p args).1 with
      | .exception tb =>
        if p.exceptionsFatal then Outcome.gtpFatalError ("internal error; exiting\n".toList ++ tb)
        else .gtpError ("internal error\n".toList ++ tb)
      | o => o) with
      | .gtpQuit msg => (false, cleanResponse (some msg), true)
      | .gtpFatalError msg => (true, cleanResponse (some (if msg = [] then "unspecified fatal error".toList else msg)), true)
      | .gtpError msg => (true, cleanResponse (some (if msg = [] then "unspecified error".toList else msg)), false)
      | .value r => (false, cleanResponse r, false)
      | .exception tb => (true, cleanResponse (some tb), false)) := by
  unfold Engine.runCommand Engine.doCommand
  simp only [(run_of_lookup C p (args := args) hl).2]
  rfl

/-- Either a forwarded command, or `gomill-passthrough` and the command: what makes the proxy run `command` on the back end. -/
def Reaches (p : Proxy σ) (given : Str) (givenArgs : List Str) (command : Str) (args : List Str) : Prop :=
  (given = command ∧ givenArgs = args ∧ p.Forwards command) ∨
  (p.handlers.lookup given = some .passthrough ∧ givenArgs = command :: args)

theorem Reaches.call (C : Channel σ) {p : Proxy σ} {given command : Str} {givenArgs args : List Str} (h : Reaches p given givenArgs command args) :
    ∃ hd, p.handlers.lookup given = some hd ∧ hd.call C p givenArgs = handleCommand C p.ctl command args := by
  rcases h with ⟨rfl, rfl, hd, h1, rfl⟩ | ⟨h1, rfl⟩
  · exact ⟨_, h1, rfl⟩
  · exact ⟨_, h1, rfl⟩

/-- C61: a command forwarded to the back end (or sent with `gomill-passthrough`) is sent exactly once, with its arguments, and the back
end's response, success or failure, is the proxy's response; the session goes on. -/
theorem C61_forward (C : Channel σ) (p : Proxy σ) (given command : Str) (givenArgs args : List Str)
    (hg : Reaches p given givenArgs command args) (hc : p.ctl.closed = false) (hw : WordsOK p.ctl command args)
    (ch1 ch2 : σ) (f : Bool) (r : Str) (hs : C.send (p.ctl.translate command) args p.ctl.chan = (.ok (), ch1))
    (hr : C.recv ch1 = (.ok (f, r), ch2)) :
    p.run C given givenArgs = ((f, relayed f r, false), ({ p with ctl := { p.ctl with isFirst := false, chan := ch2 } } : Proxy σ)) := by
  obtain ⟨hd, h1, h2⟩ := hg.call C
  have h3 := doCommand_ok C p.ctl command args hc hw hs hr
  have h4 : handleCommand C p.ctl command args =
      (if f then .gtpError r else .value (some r), { p.ctl with isFirst := false, chan := ch2 }) := by
    unfold handleCommand passCommand
    rw [h3]
    cases f <;> rfl
  rw [(run_of_lookup C p h1).1, runCommand_call C p h1, h2, h4]
  unfold relayed
  cases f
  · simp only [Bool.false_eq_true, if_false, false_and]
  · simp only [if_true, true_and]

/-- C61: if the back end can't be reached, or what it sends isn't a GTP response, the client gets a failure response containing the
controller's message and the session ends; the channel is marked bad. -/
theorem C61_broken (C : Channel σ) (p : Proxy σ) (given command : Str) (givenArgs args : List Str)
    (hg : Reaches p given givenArgs command args) (hc : p.ctl.closed = false) (hw : WordsOK p.ctl command args)
    (ch : σ) (e : ChErr) (h : C.send (p.ctl.translate command) args p.ctl.chan = (.error e, ch) ∨
      ∃ ch1, C.send (p.ctl.translate command) args p.ctl.chan = (.ok (), ch1) ∧ C.recv ch1 = (.error e, ch)) :
    ∃ sending, p.run C given givenArgs =
      ((true, cleanResponse (some (channelMessage sending (formatCommand p.ctl.isFirst (p.ctl.translate command) args) p.ctl.name e)), true),
        ({ p with ctl := { p.ctl with isFirst := false, chan := ch, bad := true } } : Proxy σ)) := by
  obtain ⟨hd, h1, h2⟩ := hg.call C
  obtain ⟨sending, h3⟩ := doCommand_broken C p.ctl command args hc hw h
  refine ⟨sending, ?_⟩
  have h4 : handleCommand C p.ctl command args =
      (.gtpFatalError (channelMessage sending (formatCommand p.ctl.isFirst (p.ctl.translate command) args) p.ctl.name e),
        { p.ctl with isFirst := false, chan := ch, bad := true }) := by
    unfold handleCommand passCommand
    rw [h3]
  rw [(run_of_lookup C p h1).1, runCommand_call C p h1, h2, h4]
  simp only [if_neg (channelMessage_ne _ _ _ _)]

/-- C61: words of a line the client sends (8-bit characters) can always be sent on: the controller never refuses them. -/
theorem C61_words {line : Str} (h8 : ∀ c ∈ line, c.toNat ≤ 0xff) {ws : List Str} (h : Spec.IsWords (Spec.significant line) ws) :
    ∀ w ∈ ws, isWellFormedWord w = true := by
  have hchar : ∀ c ∈ Spec.significant line, isSpace c = false → isWordChar c = true := by
    intro c hc hs
    unfold Spec.significant at hc
    simp only [List.mem_filter, Bool.or_eq_true, decide_eq_true_eq, Bool.and_eq_true] at hc
    obtain ⟨h1, h2⟩ := hc
    have h3 := h8 c ((List.takeWhile_sublist _).subset h1)
    have ht : c = '\t' ↔ c.toNat = 9 := by rw [← toNat_eq_iff]; rfl
    have hp : c = ' ' ↔ c.toNat = 32 := by rw [← toNat_eq_iff]; rfl
    simp only [isSpace, ht, hp, Bool.or_eq_false_iff, decide_eq_false_iff_not] at hs
    rw [ht] at h2
    simp only [isWordChar, Bool.or_eq_true, Bool.and_eq_true, decide_eq_true_eq]
    omega
  have key : ∀ (s : Str) (ws : List Str), Spec.IsWords s ws → (∀ c ∈ s, isSpace c = false → isWordChar c = true) → ∀ w ∈ ws, isWellFormedWord w = true := by
    intro s ws h
    induction h with
    | nil => simp
    | @cons gap w rest ws hg hne hw hr h ih =>
      intro hc x hx
      rcases List.mem_cons.1 hx with rfl | hx
      · unfold isWellFormedWord
        simp only [hne, ne_eq, not_false_iff, decide_true, Bool.true_and, List.all_eq_true]
        exact fun c hcm => hc c (by simp [hcm]) (hw c hcm)
      · exact ih (fun c hcm => hc c (by simp [hcm])) x hx
  exact key _ _ h hchar

/-! ### The proxy's own commands -/

theorem insertStr_sorted (x : Str) (l : List Str) (h : l.Pairwise (· < ·)) (hx : x ∉ l) : (Sgf.insertStr x l).Pairwise (· < ·) := by
  induction l with
  | nil => simp [Sgf.insertStr]
  | cons y l ih =>
    rw [List.pairwise_cons] at h
    unfold Sgf.insertStr
    split
    · rename_i hlt
      have hxy : x < y := Std.lt_of_le_of_ne (by simpa using hlt) (by simp at hx; exact hx.1)
      rw [List.pairwise_cons]
      refine ⟨?_, List.pairwise_cons.2 h⟩
      intro z hz
      rcases List.mem_cons.1 hz with rfl | hz
      · exact hxy
      · exact List.lt_trans hxy (h.1 z hz)
    · rename_i hlt
      have hlt : y < x := by simpa using hlt
      rw [List.pairwise_cons]
      refine ⟨?_, ih h.2 (fun hm => hx (by simp [hm]))⟩
      intro z hz
      have : z ∈ x :: l := by
        have key : ∀ (l : List Str), (Sgf.insertStr x l).Perm (x :: l) := by
          intro l
          induction l with
          | nil => exact List.Perm.refl _
          | cons w l ih =>
            unfold Sgf.insertStr
            split
            · exact List.Perm.refl _
            · exact (ih.cons w).trans (List.Perm.swap _ _ _)
        exact (key l).mem_iff.1 hz
      rcases List.mem_cons.1 this with rfl | hz
      · exact hlt
      · exact h.1 z hz

theorem sortStrs_sorted (l : List Str) (h : l.Nodup) : (Sgf.sortStrs l).Pairwise (· < ·) := by
  induction l with
  | nil => simp [Sgf.sortStrs]
  | cons x l ih =>
    rw [List.nodup_cons] at h
    show (Sgf.insertStr x (Sgf.sortStrs l)).Pairwise (· < ·)
    exact insertStr_sorted x _ (ih h.2) (fun hm => h.1 ((Sgf.sortStrs_perm l).mem_iff.1 hm))

theorem lookup_isSome_iff {α : Type} (l : List (Str × α)) (c : Str) : (∃ h, l.lookup c = some h) ↔ c ∈ l.map (·.1) := by
  induction l with
  | nil => simp
  | cons x l ih =>
    obtain ⟨k, v⟩ := x
    rw [List.lookup_cons, List.map_cons, List.mem_cons]
    by_cases hc : c = k
    · subst hc; simp
    · rw [beq_eq_false_iff_ne.2 hc]; simp [hc, ih]

theorem good_lines {l : List Str} (h : ∀ w ∈ l, isWellFormedWord w = true) : Good (join ['\n'] l) := by
  have hw : ∀ w ∈ l, w ≠ [] ∧ ∀ c ∈ w, isWordChar c = true := by
    intro w hw
    have := h w hw
    unfold isWellFormedWord at this
    simpa using this
  have hcc : ∀ c, isWordChar c = true → ¬ Spec.IsControl c ∧ c ≠ '\t' ∧ c ≠ '\n' ∧ isSpace c = false := by
    intro c hc
    simp only [isWordChar, Bool.or_eq_true, Bool.and_eq_true, decide_eq_true_eq] at hc
    have ht : c = '\t' ↔ c.toNat = 9 := by rw [← toNat_eq_iff]; rfl
    have hn : c = '\n' ↔ c.toNat = 10 := by rw [← toNat_eq_iff]; rfl
    refine ⟨?_, ?_, ?_, isWordChar_noSpace hc⟩
    · unfold Spec.IsControl; omega
    · rw [ne_eq, ht]; omega
    · rw [ne_eq, hn]; omega
  have hmem : ∀ c ∈ join ['\n'] l, c = '\n' ∨ isWordChar c = true := by
    intro c hc
    rcases mem_join hc with hc | ⟨w, hwm, hc⟩
    · left; simpa using hc
    · right; exact (hw w hwm).2 c hc
  refine ⟨?_, ?_, ?_, ?_⟩
  · intro c hc
    rcases hmem c hc with rfl | hc
    · unfold Spec.IsControl; decide
    · exact (hcc c hc).1
  · intro hc
    rcases hmem _ hc with hc | hc
    · exact absurd hc (by decide)
    · exact (hcc _ hc).2.1 rfl
  · have key : ∀ (l : List Str), (∀ w ∈ l, w ≠ [] ∧ ∀ c ∈ w, isWordChar c = true) →
        ¬ "\n\n".toList <:+: join ['\n'] l ∧ (join ['\n'] l).head? ≠ some '\n' := by
      intro l
      induction l with
      | nil => intro _; exact ⟨by decide, by decide⟩
      | cons w l ih =>
        intro hw
        obtain ⟨ih1, ih2⟩ := ih (fun x hx => hw x (by simp [hx]))
        obtain ⟨h1, h2⟩ := hw w (by simp)
        have hnw : '\n' ∉ w := fun hm => (hcc _ (h2 _ hm)).2.2.1 rfl
        have hhead : ∀ t, (w ++ t).head? ≠ some '\n' := by
          intro t
          cases w with
          | nil => exact absurd rfl h1
          | cons a w =>
            simp only [List.cons_append, List.head?_cons, ne_eq, Option.some.injEq]
            rintro rfl
            exact hnw (by simp)
        cases l with
        | nil =>
          refine ⟨fun h0 => hnw (h0.subset (by simp [join]) ), ?_⟩
          have := hhead []
          simpa [join] using this
        | cons v l =>
          have e : join ['\n'] (w :: v :: l) = w ++ '\n' :: join ['\n'] (v :: l) := by simp [join]
          rw [e]
          refine ⟨?_, hhead _⟩
          rintro ⟨a, b, hab⟩
          have hab : w ++ '\n' :: join ['\n'] (v :: l) = a ++ '\n' :: '\n' :: b := by
            rw [← hab]; simp
          rcases List.append_eq_append_iff.1 hab with ⟨x, e1, e2⟩ | ⟨x, e1, e2⟩
          · cases x with
            | nil =>
              simp at e2
              apply ih2; rw [e2]; rfl
            | cons y x =>
              simp at e2
              apply ih1
              rw [e2.2]
              exact ⟨x, b, by simp⟩
          · cases x with
            | nil =>
              simp at e2
              apply ih2; rw [← e2]; rfl
            | cons y x =>
              simp at e2
              apply hnw; rw [e1, ← e2.1]; simp
    exact (key l hw).1
  · have key : ∀ (l : List Str), (∀ w ∈ l, w ≠ [] ∧ ∀ c ∈ w, isWordChar c = true) →
        ∀ c, (join ['\n'] l).getLast? = some c → isWordChar c = true := by
      intro l
      induction l with
      | nil => intro _ c hc; simp [join] at hc
      | cons w l ih =>
        intro hw c hc
        obtain ⟨h1, h2⟩ := hw w (by simp)
        cases l with
        | nil =>
          have e : join ['\n'] [w] = w := by simp [join]
          rw [e] at hc
          exact h2 c (List.mem_of_getLast? hc)
        | cons v l =>
          have e : join ['\n'] (w :: v :: l) = w ++ '\n' :: join ['\n'] (v :: l) := by simp [join]
          rw [e] at hc
          have hne : join ['\n'] (v :: l) ≠ [] := by
            have hv := (hw v (by simp)).1
            cases l <;> simp [join, hv]
          rw [List.getLast?_append_of_ne_nil _ (by simp), List.getLast?_cons_of_ne_nil hne] at hc
          exact ih (fun x hx => hw x (by simp [hx])) c hc
    exact fun c hc => (hcc c (key l hw c hc)).2.2.2

theorem nodup_eraseDups (n : Nat) : ∀ (l : List Str), l.length ≤ n → l.eraseDups.Nodup := by
  induction n with
  | zero =>
    intro l hl
    have : l = [] := List.length_eq_zero_iff.1 (by omega)
    subst this
    simp
  | succ n ih =>
    intro l hl
    cases l with
    | nil => simp
    | cons a l =>
      rw [List.eraseDups_cons, List.nodup_cons]
      refine ⟨?_, ih _ ?_⟩
      · rw [List.mem_eraseDups]; simp
      · have := List.length_filter_le (fun b => !b == a) l
        simp only [List.length_cons] at hl
        omega

/-- The names of all the proxy's commands can be GTP commands. (Always so, unless the user adds a command whose name can't be.) -/
def Proxy.NamesOK (p : Proxy σ) : Prop := ∀ c, p.Has c → isWellFormedWord c = true

theorem NamesOK_start (C : Channel σ) (ctl ctl' : Ctl σ) (p : Proxy σ) (h : setBackEnd C ctl = (.ok p, ctl')) : p.NamesOK := by
  unfold setBackEnd Ctl.listCommands at h
  cases hx : ctl.doCommand C "list_commands".toList [] with
  | mk x c1 =>
    rw [hx] at h
    cases x with
    | error e => cases e <;> simp at h
    | ok r =>
      simp only [Prod.mk.injEq, Except.ok.injEq] at h
      rw [← h.1]
      intro c hc
      rw [makeProxy_has] at hc
      rcases hc with hc | hc
      · exact (List.mem_filter.1 hc).2
      · unfold ownCommands at hc
        simp only [List.mem_cons, List.not_mem_nil, or_false] at hc
        rcases hc with rfl | rfl | rfl | rfl | rfl <;> decide +kernel

/-- C61: the proxy's `list_commands` gives each of the commands the proxy has, once, in order, one on each line; its `known_command` says
whether it has a command; `protocol_version` is 2.  None of them involves the back end. -/
theorem C61_own (C : Channel σ) (p : Proxy σ) (hn : p.NamesOK) (args : List Str) :
    (p.handlers.lookup "list_commands".toList = some .listCommands →
      ∃ l : List Str, l.Pairwise (· < ·) ∧ (∀ c, c ∈ l ↔ p.Has c) ∧
        p.run C "list_commands".toList args = ((false, join ['\n'] l, false), p)) ∧
    (p.handlers.lookup "known_command".toList = some .knownCommand →
      (p.run C "known_command".toList args).2 = p ∧
      (∀ c rest, args = c :: rest → p.Has c → (p.run C "known_command".toList args).1 = (false, "true".toList, false)) ∧
      (∀ c rest, args = c :: rest → ¬ p.Has c → (p.run C "known_command".toList args).1 = (false, "false".toList, false)) ∧
      (args = [] → (p.run C "known_command".toList args).1 = (false, "false".toList, false))) ∧
    (p.handlers.lookup "protocol_version".toList = some .protocolVersion →
      p.run C "protocol_version".toList args = ((false, "2".toList, false), p)) := by
  refine ⟨?_, ?_, ?_⟩
  · intro hl
    have hmem : ∀ c, c ∈ p.listCommands ↔ p.Has c := by
      intro c
      unfold Proxy.listCommands Proxy.Has
      rw [(Sgf.sortStrs_perm _).mem_iff, List.mem_eraseDups, lookup_isSome_iff]
    refine ⟨p.listCommands, sortStrs_sorted _ (nodup_eraseDups _ _ (Nat.le_refl _)), hmem, ?_⟩
    rw [(run_of_lookup C p hl).1, runCommand_call C p hl]
    simp only [Handler.call, clean_good_id (good_lines (fun w hw => hn w ((hmem w).1 hw)))]
  · intro hl
    have hrun : p.run C "known_command".toList args =
        ((false, cleanResponse (some (if args.head?.any (fun a => (p.handlers.lookup a).isSome) then "true".toList else "false".toList)), false), p) := by
      rw [(run_of_lookup C p hl).1, runCommand_call C p hl]
      rfl
    have ht : cleanResponse (some "true".toList) = "true".toList := by decide +kernel
    have hf : cleanResponse (some "false".toList) = "false".toList := by decide +kernel
    rw [hrun]
    refine ⟨rfl, ?_, ?_, ?_⟩
    · rintro c rest rfl ⟨h, hh⟩
      have : (List.head? (c :: rest)).any (fun a => (p.handlers.lookup a).isSome) = true := by simp [hh]
      simp only [this, if_true, ht]
    · rintro c rest rfl hnot
      have : (List.head? (c :: rest)).any (fun a => (p.handlers.lookup a).isSome) = false := by
        cases hq : p.handlers.lookup c with
        | none => simp [hq]
        | some h => exact absurd ⟨h, hq⟩ hnot
      simp only [this, Bool.false_eq_true, if_false, hf]
    · rintro rfl
      have : (List.head? ([] : List Str)).any (fun a => (p.handlers.lookup a).isSome) = false := rfl
      simp only [this, Bool.false_eq_true, if_false, hf]
  · intro hl
    rw [(run_of_lookup C p hl).1, runCommand_call C p hl]
    have : cleanResponse (some "2".toList) = "2".toList := by decide +kernel
    simp only [Handler.call, this]

/-- C61: any other command gets the failure response "unknown command", and the back end isn't involved. -/
theorem C61_unknown (C : Channel σ) (p : Proxy σ) (c : Str) (args : List Str) (h : ¬ p.Has c) :
    p.run C c args = ((true, "unknown command".toList, false), p) := by
  have hl : p.handlers.lookup c = none := by
    cases hq : p.handlers.lookup c with
    | none => rfl
    | some x => exact absurd ⟨x, hq⟩ h
  have hh : (p.engine C).handlers c = none := by
    unfold Proxy.engine; simp only [hl, Option.map_none]
  unfold Proxy.run Engine.runCommand Engine.doCommand
  have : cleanResponse (some "unknown command".toList) = "unknown command".toList := by decide +kernel
  have hne : ("unknown command".toList : Str) ≠ [] := by decide +kernel
  simp only [hh, hl, if_neg hne, this]

/-! ### quit and close -/

/-- What the proxy may respond to 'quit', by what the back end did. -/
inductive QuitReply : Except CExc Str → Bool → Str → Prop
  /-- the back end's own reply -/
  | quit (r : Str) : QuitReply (.ok r) false (cleanResponse (some r))
  /-- the back end had already gone -/
  | gone (msg : Str) : QuitReply (.error (.channel ⟨.closed, msg⟩)) false []
  /-- the back end said no -/
  | refused (msg r : Str) : QuitReply (.error (.badResponse msg (some r))) true
      (cleanResponse (some (if r = [] then "unspecified fatal error".toList else r)))
  /-- any other low-level error -/
  | broken (e : ChErr) (h : e.kind ≠ .closed) (hne : e.msg ≠ []) : QuitReply (.error (.channel e)) true (cleanResponse (some e.msg))

theorem doCommand_badResponse (C : Channel σ) (c : Ctl σ) (command : Str) (args : List Str) (msg : Str) (m : Option Str)
    (h : (c.doCommand C command args).1 = .error (.badResponse msg m)) : ∃ r, m = some r := by
  unfold Ctl.doCommand at h
  simp only at h
  split at h
  · simp at h
  · split at h
    · simp at h
    · split at h
      · simp at h
      · split at h
        · simp at h
        · split at h
          · simp at h; exact ⟨_, h.2.symm⟩
          · simp at h

theorem doCommand_channel (C : Channel σ) (c : Ctl σ) (command : Str) (args : List Str) (e : ChErr)
    (h : (c.doCommand C command args).1 = .error (.channel e)) : e.msg ≠ [] ∧ (c.doCommand C command args).2.bad = true := by
  revert h
  unfold Ctl.doCommand
  simp only
  split
  · simp
  · split
    · simp
    · split
      · intro h
        simp only [Except.error.injEq, CExc.channel.injEq] at h
        subst h
        exact ⟨by dsimp only; apply channelMessage_ne, rfl⟩
      · split
        · intro h
          simp only [Except.error.injEq, CExc.channel.injEq] at h
          subst h
          exact ⟨by dsimp only; apply channelMessage_ne, rfl⟩
        · split <;> simp

/-- C61: 'quit' is sent to the back end (whatever arguments it was given); whatever comes of that, the session ends and the channel is marked bad
(so that nothing will be sent to the back end by `close`).  It is enough that the controller isn't closed and that its alias for quit, if any, is
well-formed. -/
theorem C61_quit (C : Channel σ) (p : Proxy σ) (args : List Str) (hq : p.handlers.lookup "quit".toList = some .proxyQuit)
    (hc : p.ctl.closed = false) (hw : WordsOK p.ctl "quit".toList []) :
    ∃ f text, QuitReply (p.ctl.doCommand C "quit".toList []).1 f text ∧
      p.run C "quit".toList args =
        ((f, text, true), ({ p with ctl := { (p.ctl.doCommand C "quit".toList []).2 with bad := true } } : Proxy σ)) := by
  rw [(run_of_lookup C p hq).1, runCommand_call C p hq]
  have hv := doCommand_value C p.ctl "quit".toList [] hw
  have hcl := doCommand_open C p.ctl "quit".toList [] hc
  have hb := doCommand_badResponse C p.ctl "quit".toList []
  have hch := doCommand_channel C p.ctl "quit".toList []
  have hnc : (p.ctl.doCommand C "quit".toList []).1 ≠ .error .channelIsClosed := by
    unfold Ctl.doCommand
    simp only [hc, Bool.false_eq_true, if_false]
    split
    · simp
    · split
      · simp
      · split
        · simp
        · split <;> simp
  simp only [Handler.call, handleQuit, passCommand]
  cases hx : p.ctl.doCommand C "quit".toList [] with
  | mk x c1 =>
    rw [hx] at hv hb hch hnc
    cases x with
    | ok r => exact ⟨false, _, .quit r, rfl⟩
    | error e =>
      cases e with
      | value => exact absurd rfl hv
      | channelIsClosed => exact absurd rfl hnc
      | badResponse msg m =>
        obtain ⟨r, rfl⟩ := hb msg m rfl
        exact ⟨true, _, .refused msg r, rfl⟩
      | channel e =>
        obtain ⟨h1, h2⟩ := hch e rfl
        have hbad : ({ c1 with bad := true } : Ctl σ) = c1 := by
          simp only at h2
          cases c1
          simp only at h2
          rw [h2]
        by_cases hk : e.kind = .closed
        · obtain ⟨k, msg⟩ := e
          simp only at hk
          subst hk
          exact ⟨false, _, .gone msg, rfl⟩
        · refine ⟨true, _, .broken e hk h1, ?_⟩
          rw [hbad]
          obtain ⟨k, msg⟩ := e
          cases k with
          | closed => exact absurd rfl hk
          | transport => simp only [if_neg h1]
          | protocol => simp only [if_neg h1]
          | other => simp only [if_neg h1]

/-- C61: after the session has ended with 'quit' (or with any low-level error), `close` closes the channel, sending nothing more to the back end. -/
theorem C61_close_after (C : Channel σ) (p : Proxy (σ × List Event)) (hb : p.ctl.bad = true) (hc : p.ctl.closed = false) :
    (p.close (logged C)).2.ctl.closed = true ∧
    ∃ ok, (p.close (logged C)).2.ctl.chan.2 = p.ctl.chan.2 ++ [.closed ok] := by
  unfold Proxy.close Ctl.safeClose Ctl.safeQuit
  simp only [hc, Bool.false_eq_true, if_false, hb, if_true]
  have hl : ((logged C).close p.ctl.chan).2.2 = p.ctl.chan.2 ++ [.closed (decide ((C.close p.ctl.chan.1).1 = none))] := rfl
  cases hx : (logged C).close p.ctl.chan with
  | mk x ch =>
    rw [hx] at hl
    cases x with
    | some msg => simp only; split <;> exact ⟨rfl, _, hl⟩
    | none => simp only; split <;> exact ⟨rfl, _, hl⟩

/-- C61: `close` leaves the controller closed; it raises BackEndError if, and only if, there are error messages, set aside now or earlier,
and BackEndError's text is made of them. Closing again sends nothing, and reports the same. -/
theorem C61_close (C : Channel σ) (p : Proxy (σ × List Event)) (hw : isWellFormedWord (p.ctl.translate "quit".toList) = true) :
    (p.close (logged C)).2.ctl.closed = true ∧ p.ctl.errors <+: (p.close (logged C)).2.ctl.errors ∧
    ((p.close (logged C)).1 = .ok () ∧ (p.close (logged C)).2.ctl.errors = [] ∨
     (p.close (logged C)).1 = .error (.backEnd (join ['\n'] (p.close (logged C)).2.ctl.errors) none) ∧ (p.close (logged C)).2.ctl.errors ≠ []) ∧
    (p.close (logged C)).2.close (logged C) = p.close (logged C) := by
  obtain ⟨c', h1, h2, _⟩ := C57_safe_close C p.ctl hw
  have h3 := (safeClose_later C p.ctl).errors
  rw [h1] at h3
  have hagain : c'.safeClose (logged C) = (.ok (), c') := by unfold Ctl.safeClose; simp [h2]
  by_cases he : c'.errors = []
  · have : p.close (logged C) = (.ok (), { p with ctl := c' }) := by unfold Proxy.close; simp only [h1, he, ne_eq, not_true, if_false]
    rw [this]
    refine ⟨h2, h3, .inl ⟨rfl, he⟩, ?_⟩
    unfold Proxy.close; simp only [hagain, he, ne_eq, not_true, if_false]
  · have : p.close (logged C) = (.error (.backEnd (join ['\n'] c'.errors) none), { p with ctl := c' }) := by
      unfold Proxy.close; simp only [h1, he, ne_eq, not_false_iff, if_true]
    rw [this]
    refine ⟨h2, h3, .inr ⟨rfl, he⟩, ?_⟩
    unfold Proxy.close; simp only [hagain, he, ne_eq, not_false_iff, if_true]

/-- C61: with no errors set aside before, and the controller open, `close` succeeds exactly if the back end accepts 'quit' (unless the channel was marked bad:
then 'quit' isn't sent) and the channel can be closed. -/
theorem C61_close_ok (C : Channel σ) (p : Proxy σ) (hw : WordsOK p.ctl "quit".toList []) (hc : p.ctl.closed = false) (he : p.ctl.errors = []) :
    (p.close C).1 = .ok () ↔
      (p.ctl.bad = true ∧ (C.close p.ctl.chan).1 = none) ∨
      (p.ctl.bad = false ∧ ∃ r c', p.ctl.doCommand C "quit".toList [] = (.ok r, c') ∧ (C.close c'.chan).1 = none) := by
  have hv := doCommand_value C p.ctl "quit".toList [] hw
  have hnc : (p.ctl.doCommand C "quit".toList []).1 ≠ .error .channelIsClosed := by
    unfold Ctl.doCommand
    simp only [hc, Bool.false_eq_true, if_false]
    split
    · simp
    · split
      · simp
      · split
        · simp
        · split <;> simp
  have hke : (p.ctl.doCommand C "quit".toList []).2.errors = p.ctl.errors := by
    unfold Ctl.doCommand
    simp only [hc, Bool.false_eq_true, if_false]
    split
    · rfl
    · split
      · rfl
      · split
        · rfl
        · split <;> rfl
  cases hb : p.ctl.bad with
  | true =>
    unfold Proxy.close Ctl.safeClose Ctl.safeQuit
    simp only [hc, hb, Bool.false_eq_true, if_false, if_true]
    cases hx : C.close p.ctl.chan with
    | mk x ch => cases x <;> simp [he]
  | false =>
    unfold Proxy.close Ctl.safeClose Ctl.safeQuit Ctl.safeDoCommand
    simp only [hc, hb, Bool.false_eq_true, if_false, Bool.or_false]
    cases hd : p.ctl.doCommand C "quit".toList [] with
    | mk y c1 =>
      rw [hd] at hv hnc hke
      simp only at hke
      rw [he] at hke
      cases y with
      | ok r =>
        simp only
        cases hx : C.close c1.chan with
        | mk x ch => cases x <;> simp [hke, hx]
      | error e =>
        cases e with
        | value => exact absurd rfl hv
        | channelIsClosed => exact absurd rfl hnc
        | badResponse msg m =>
          simp only
          cases hx : C.close c1.chan with
          | mk x ch => cases x <;> simp
        | channel e =>
          simp only
          cases hx : C.close c1.chan with
          | mk x ch => cases x <;> simp

/-! ### Whole sessions -/

/-- For every engine, a line is either ignored or asks for one command. -/
theorem serveLine_cases (line : Str) :
    (∀ {ε : Type} (run : ε → Str → List Str → (Bool × Str × Bool) × ε) (e : ε), serveLine run e line = (.ok (none, false), e)) ∨
    ∃ id c args, Asks line id c args ∧ ∀ {ε : Type} (run : ε → Str → List Str → (Bool × Str × Bool) × ε) (e : ε),
      serveLine run e line = (.ok (some (Spec.responseText (run e c args).1.1 id (run e c args).1.2.1), (run e c args).1.2.2), (run e c args).2) := by
  have hfmt : ∀ (b : Bool) (i : Option Str) (t : Str),
      ((if b then '?' else '=') :: (i.getD [] ++ (if t = [] then [] else [' ']) ++ t ++ ['\n', '\n'])) = Spec.responseText b i t := by
    intro b i t
    unfold Spec.responseText
    by_cases ht : t = [] <;> simp [ht]
  cases hq : splitWs (Spec.significant line) with
  | nil =>
    left
    intro ε run e
    unfold serveLine
    simp only [if_pos (preprocess_blank.mpr hq)]
  | cons w ws =>
    have h := isWords_splitWs (Spec.significant line)
    rw [hq] at h
    have hne : ¬ (preprocessLine line = [] ∨ preprocessLine line = [' ']) := by rw [preprocess_blank, hq]; simp
    rcases C32_cases w with hw | hw | ⟨i, c, rfl, hi, hc, hd⟩
    · right
      refine ⟨none, w, ws, .plain h hw, ?_⟩
      intro ε run e
      unfold serveLine
      simp only [if_neg hne, parseLine, splitWs_preprocess, hq, matchCommandId_none.mpr hw, hfmt]
    · have hm := matchCommandId_of_isId (c := []) hw (by simp)
      rw [List.append_nil] at hm
      cases ws with
      | nil =>
        left
        intro ε run e
        unfold serveLine
        simp only [if_neg hne, parseLine, splitWs_preprocess, hq, hm, List.drop_length, if_true, List.head?_nil]
      | cons c args =>
        right
        refine ⟨clipId w, c, args, .separate hw h (clipId_reported hw), ?_⟩
        intro ε run e
        unfold serveLine
        simp only [if_neg hne, parseLine, splitWs_preprocess, hq, hm, List.drop_length, if_true, List.head?_cons, List.drop_succ_cons,
          List.drop_zero, hfmt]
    · right
      refine ⟨clipId i, c, ws, .attached hi hc hd h (clipId_reported hi), ?_⟩
      intro ε run e
      unfold serveLine
      simp only [if_neg hne, parseLine, splitWs_preprocess, hq, matchCommandId_of_isId hi hd, List.drop_left, if_neg hc, hfmt]

/-- For an engine without state, `serveLine` is `handleLine`. -/
theorem serveLine_engine (e : Engine) (line : Str) : (serveLine (fun (e : Engine) c args => (e.runCommand c args, e)) e line).1 = e.handleLine line := by
  unfold serveLine Engine.handleLine
  simp only
  split
  · rfl
  · cases parseLine (preprocessLine line) with
    | error x => rfl
    | ok r =>
      obtain ⟨i, c, args⟩ := r
      cases c <;> rfl

theorem Asks.words {line : Str} (h8 : ∀ c ∈ line, c.toNat ≤ 0xff) {id : Option Str} {c : Str} {args : List Str} (h : Asks line id c args) :
    isWellFormedWord c = true ∧ ∀ a ∈ args, isWellFormedWord a = true := by
  cases h with
  | plain h hc =>
    have := C61_words h8 h
    exact ⟨this _ (by simp), fun a ha => this a (by simp [ha])⟩
  | separate hi h ho =>
    have := C61_words h8 h
    exact ⟨this _ (by simp), fun a ha => this a (by simp [ha])⟩
  | attached hi hc hd h ho =>
    have := C61_words h8 h
    refine ⟨?_, fun a ha => this a (by simp [ha])⟩
    have h1 := this _ (List.mem_cons_self ..)
    unfold isWellFormedWord at h1 ⊢
    simp only [ne_eq, Bool.and_eq_true, decide_eq_true_eq, List.all_eq_true] at h1 ⊢
    exact ⟨hc, fun x hx => h1.2 x (by simp [hx])⟩

variable {ε : Type}

/-- What is asked of the back end: its responses are well-formed (no control characters, empty lines or trailing whitespace), its failure responses have a text,
and it ends the session on 'quit', successfully and whatever the arguments, and only then. -/
structure WellBehaved (run : ε → Str → List Str → (Bool × Str × Bool) × ε) : Prop where
  good : ∀ e c args, Good (run e c args).1.2.1
  failure : ∀ e c args, (run e c args).1.1 = true → (run e c args).1.2.1 ≠ []
  goesOn : ∀ e c args, c ≠ "quit".toList → (run e c args).1.2.2 = false
  quit : ∀ e args, run e "quit".toList args = run e "quit".toList []
  quits : ∀ e args, (run e "quit".toList args).1.1 = false ∧ (run e "quit".toList args).1.2.2 = true

/-- A proxy for an engine in the same process, with no aliases. -/
structure ProxyFor (p : Proxy (Internal ε)) (e : ε) : Prop where
  isOpen : p.ctl.closed = false
  chan : p.ctl.chan = ⟨e, [], false⟩
  noAliases : p.ctl.aliases = []
  quit : p.handlers.lookup "quit".toList = some .proxyQuit

theorem ProxyFor.translate {p : Proxy (Internal ε)} {e : ε} (h : ProxyFor p e) (c : Str) : p.ctl.translate c = c := by
  unfold Ctl.translate; rw [h.noAliases]; rfl

theorem relayed_good {f : Bool} {r : Str} (h : Good r) (hf : f = true → r ≠ []) : relayed f r = r := by
  unfold relayed
  rw [if_neg (fun h => hf h.1 h.2), clean_good_id h]

/-- C61: the proxy is transparent.  Given the same lines, a session with the proxy writes the same bytes as a session with the back end itself,
and leaves the back end in the same state; if every command asked for is one the back end listed (and the proxy doesn't handle itself), or
'quit', or one the back end doesn't have. -/
theorem C61_session (run : ε → Str → List Str → (Bool × Str × Bool) × ε) (hrun : WellBehaved run) (lines : List Str) (p : Proxy (Internal ε)) (e : ε)
    (hp : ProxyFor p e) (h8 : ∀ line ∈ lines, ∀ c ∈ line, c.toNat ≤ 0xff)
    (hcmd : ∀ line ∈ lines, ∀ id c args, Asks line id c args → p.Forwards c ∨ c = "quit".toList ∨
      (¬ p.Has c ∧ ∀ e, run e c args = ((true, "unknown command".toList, false), e))) :
    (serve (Proxy.run (internalChannel run)) p lines).1 = (serve run e lines).1 ∧
    (serve (Proxy.run (internalChannel run)) p lines).2.ctl.chan.engine = (serve run e lines).2 := by
  induction lines generalizing p e with
  | nil => exact ⟨rfl, by show p.ctl.chan.engine = e; rw [hp.chan]⟩
  | cons line lines ih =>
    have ih := fun p e hp hh => ih p e hp (fun l hl => h8 l (by simp [hl])) hh
    rcases serveLine_cases line with h | ⟨id, c, args, ha, h⟩
    · obtain ⟨h1, h2⟩ := ih p e hp (fun l hl => hcmd l (by simp [hl]))
      unfold serve
      rw [h, h]
      simp only [Bool.false_eq_true, if_false]
      revert h1 h2
      cases serve (Proxy.run (internalChannel run)) p lines with
      | mk x p' =>
        cases serve run e lines with
        | mk y e' =>
          intro h1 h2
          simp only at h1 h2
          subst h1
          cases x <;> exact ⟨rfl, h2⟩
    · have key : ∃ p', Proxy.run (internalChannel run) p c args = ((run e c args).1, p') ∧ p'.ctl.chan.engine = (run e c args).2 ∧
          ((run e c args).1.2.2 = false → ProxyFor p' (run e c args).2 ∧ p'.handlers = p.handlers) := by
        obtain ⟨hw1, hw2⟩ := ha.words (h8 line (by simp))
        have hsend : ∀ c' args', (internalChannel run).send (p.ctl.translate c') args' p.ctl.chan = (.ok (), ⟨e, [(c', args')], false⟩) := by
          intro c' args'; rw [hp.translate, hp.chan]; rfl
        have hrecv : ∀ c' args', (internalChannel run).recv ⟨e, [(c', args')], false⟩ =
            (.ok ((run e c' args').1.1, (run e c' args').1.2.1), ⟨(run e c' args').2, [], (run e c' args').1.2.2⟩) := fun _ _ => rfl
        by_cases hquit : c = "quit".toList
        · subst hquit
          obtain ⟨f, text, hq1, hq2⟩ := C61_quit (internalChannel run) p args hp.quit hp.isOpen
            ⟨by rw [hp.translate]; exact hw1, by simp⟩
          have hd := doCommand_ok (internalChannel run) p.ctl "quit".toList [] hp.isOpen ⟨by rw [hp.translate]; exact hw1, by simp⟩
            (hsend _ _) (hrecv _ _)
          obtain ⟨hs1, hs2⟩ := hrun.quits e []
          rw [hs1] at hd
          simp only [Bool.false_eq_true, if_false] at hd
          rw [hd] at hq1 hq2
          have ht : f = false ∧ text = (run e "quit".toList []).1.2.1 := by
            cases hq1
            exact ⟨rfl, clean_good_id (hrun.good e _ _)⟩
          obtain ⟨rfl, rfl⟩ := ht
          refine ⟨_, hq2.trans (Prod.ext ?_ rfl), ?_, ?_⟩
          · rw [hrun.quit e args]
            exact Prod.ext hs1.symm (Prod.ext rfl hs2.symm)
          · rw [hrun.quit e args]
          · intro h0
            rw [(hrun.quits e args).2] at h0
            cases h0
        · rcases hcmd line (by simp) id c args ha with hf | hf | ⟨hf1, hf2⟩
          · have := C61_forward (internalChannel run) p c c args args (.inl ⟨rfl, rfl, hf⟩) hp.isOpen
              ⟨by rw [hp.translate]; exact hw1, hw2⟩ _ _ _ _ (hsend _ _) (hrecv _ _)
            rw [relayed_good (hrun.good e c args) (hrun.failure e c args)] at this
            have hg := hrun.goesOn e c args hquit
            refine ⟨_, this.trans (Prod.ext ?_ rfl), ?_, ?_⟩
            · exact Prod.ext rfl (Prod.ext rfl hg.symm)
            · rfl
            · intro _
              exact ⟨⟨hp.isOpen, by simp only [hg], hp.noAliases, hp.quit⟩, rfl⟩
          · exact absurd hf hquit
          · refine ⟨p, ?_, ?_, ?_⟩
            · rw [C61_unknown _ p c args hf1, hf2 e]
            · rw [hf2 e, hp.chan]
            · intro _
              rw [hf2 e]
              exact ⟨hp, rfl⟩
      obtain ⟨p', hr, hst, hnext⟩ := key
      unfold serve
      rw [h, h, hr]
      cases hend : (run e c args).1.2.2 with
      | true => simp only [if_true]; exact ⟨trivial, hst⟩
      | false =>
        obtain ⟨hp', hh⟩ := hnext hend
        have hsame : ∀ d, (p'.Forwards d ↔ p.Forwards d) ∧ (p'.Has d ↔ p.Has d) := by
          intro d
          unfold Proxy.Forwards Proxy.Has
          rw [hh]; exact ⟨Iff.rfl, Iff.rfl⟩
        obtain ⟨h1, h2⟩ := ih p' _ hp' (fun l hl id' d args' had => by
          rw [(hsame d).1, (hsame d).2]
          exact hcmd l (by simp [hl]) id' d args' had)
        simp only [Bool.false_eq_true, if_false]
        revert h1 h2
        cases serve (Proxy.run (internalChannel run)) p' lines with
        | mk x p' =>
          cases serve run (run e c args).2 lines with
          | mk y e' =>
            intro h1 h2
            simp only at h1 h2
            subst h1
            cases x <;> exact ⟨rfl, h2⟩

/-! ### Examples -/

/-- An engine with a counter: `count` adds one and gives the count (as a tally), `fail` fails, and it has the standard commands it needs. -/
def proxyExample (n : Nat) (command : Str) (args : List Str) : (Bool × Str × Bool) × Nat :=
  if command = "list_commands".toList then ((false, "count\nfail\nlist_commands\nquit".toList, false), n)
  else if command = "count".toList then ((false, List.replicate (n + 1 + args.length) '|', false), n + 1 + args.length)
  else if command = "fail".toList then ((true, "no".toList, false), n)
  else if command = "quit".toList then ((false, [], true), n)
  else ((true, "unknown command".toList, false), n)

/-- The proxy for it. -/
def proxyExampleStart : Proxy (Internal Nat) :=
  makeProxy (Ctl.init ⟨0, [], false⟩ "back end".toList) ["count".toList, "fail".toList, "list_commands".toList, "quit".toList]

/-- A session with several kinds of line. -/
def proxyExampleLines : List Str :=
  ["1 count\n".toList, "# nothing\n".toList, "2fail x\n".toList, "\tcount a b # c\n".toList, "-1 nonsense\n".toList, "4 quit now\n".toList, "count\n".toList]

theorem good_tally (k : Nat) : Good (List.replicate k '|') := by
  have h : ∀ c ∈ List.replicate k '|', c = '|' := fun c hc => (List.mem_replicate.1 hc).2
  refine ⟨?_, ?_, ?_, ?_⟩
  · intro c hc; rw [h c hc]; unfold Spec.IsControl; decide
  · intro hc; exact absurd (h _ hc) (by decide)
  · intro h0; exact absurd (h '\n' (h0.subset (by simp))) (by decide)
  · intro c hc; rw [h c (List.mem_of_getLast? hc)]; decide

/-- The hypotheses of C61_session are met. -/
theorem proxyExample_ok : WellBehaved proxyExample ∧ ProxyFor proxyExampleStart 0 ∧ proxyExampleStart.Forwards "count".toList ∧
    proxyExampleStart.Forwards "fail".toList ∧ ¬ proxyExampleStart.Has "nonsense".toList ∧
    (∀ e args, proxyExample e "nonsense".toList args = ((true, "unknown command".toList, false), e)) := by
  have hq : ∀ e args, proxyExample e "quit".toList args = ((false, [], true), e) := fun _ _ => rfl
  refine ⟨⟨?_, ?_, ?_, ?_, ?_⟩, ⟨rfl, rfl, rfl, ?_⟩, ?_, ?_, ?_, fun _ _ => rfl⟩
  · intro e c args
    unfold proxyExample
    split
    · exact good_lines (l := ["count".toList, "fail".toList, "list_commands".toList, "quit".toList]) (by decide +kernel)
    · split
      · exact good_tally _
      · split
        · exact good_lines (l := ["no".toList]) (by decide +kernel)
        · split
          · exact good_nil
          · exact good_const (s := "unknown command".toList) (by unfold Spec.IsControl; decide +kernel) (by decide +kernel)
  · intro e c args
    unfold proxyExample
    split
    · simp
    · split
      · simp
      · split
        · intro _; show ("no".toList : Str) ≠ []; decide +kernel
        · split
          · simp
          · intro _; show ("unknown command".toList : Str) ≠ []; decide +kernel
  · intro e c args hc
    unfold proxyExample
    split
    · rfl
    · split
      · rfl
      · split
        · rfl
        · simp only [if_neg hc]
  · intro e args; rw [hq, hq]
  · intro e args; rw [hq]; exact ⟨rfl, rfl⟩
  · unfold proxyExampleStart; exact (makeProxy_own _ _).2.1
  · exact (makeProxy_forwards _ _ _).2 (by decide +kernel)
  · exact (makeProxy_forwards _ _ _).2 (by decide +kernel)
  · intro h; exact absurd ((makeProxy_has _ _ _).1 h) (by decide +kernel)

theorem C61_witness :
    (serve (Proxy.run (internalChannel proxyExample)) proxyExampleStart proxyExampleLines).1.toOption =
      some "=1 |\n\n?2 no\n\n= ||||\n\n? unknown command\n\n=4\n\n".toList ∧
    (serve proxyExample 0 proxyExampleLines).1.toOption = some "=1 |\n\n?2 no\n\n= ||||\n\n? unknown command\n\n=4\n\n".toList ∧
    (Proxy.run (internalChannel proxyExample) proxyExampleStart "list_commands".toList []).1 =
      (false, "count\nfail\ngomill-passthrough\nknown_command\nlist_commands\nprotocol_version\nquit".toList, false) ∧
    (Proxy.run (internalChannel proxyExample) proxyExampleStart "gomill-passthrough".toList ["list_commands".toList]).1 =
      (false, "count\nfail\nlist_commands\nquit".toList, false) ∧
    (setBackEnd (internalChannel proxyExample) (Ctl.init ⟨0, [], false⟩ "back end".toList)).1.toOption.map (fun p => p.listCommands) =
      some proxyExampleStart.listCommands := by
  refine ⟨?_, ?_, ?_, ?_, ?_⟩ <;> decide +kernel

end Gomill.Gtp
