import Verif.Spec.GtpController
/-
C57: Gtp_controller.
-/
namespace Gomill.Gtp
open Py

variable {σ : Type}

/-- What any number of calls can do to a controller. -/
structure Later (c c' : Ctl (σ × List Event)) : Prop where
  log : ∃ new : List (List Event), c'.chan.2 = c.chan.2 ++ new.flatten ∧ (∀ x ∈ new, Exchange x) ∧
    (∀ x ∈ new, ∀ command args ok, .sent command args ok ∈ x → isWellFormedWord command = true ∧ args.all isWellFormedWord = true) ∧
    ((∃ x ∈ new, ∃ e ∈ x, e.Fault) → c'.bad = true) ∧
    (c'.bad = true → c.bad = true ∨ ∃ x ∈ new, ∃ e ∈ x, e.Fault) ∧
    (∀ l x r, new = l ++ x :: r → .closed true ∈ x → c'.closed = true ∧ r = [])
  bad : c.bad = true → c'.bad = true
  closed : c.closed = true → c'.closed = true ∧ c'.chan = c.chan
  errors : c.errors <+: c'.errors
  known : ∀ k b, c.known.lookup k = some b → c'.known.lookup k = some b
  name : c'.name = c.name

theorem Later.refl (c : Ctl (σ × List Event)) : Later c c where
  log := ⟨[], by simp, by simp, by simp, by simp, fun h => .inl h, by simp⟩
  bad := id
  closed := fun h => ⟨h, rfl⟩
  errors := List.prefix_refl _
  known := fun _ _ h => h
  name := rfl

theorem Later.trans {a b c : Ctl (σ × List Event)} (h1 : Later a b) (h2 : Later b c) : Later a c where
  log := by
    obtain ⟨n1, a1, a2, a3, a4, a5, a6⟩ := h1.log
    obtain ⟨n2, b1, b2, b3, b4, b5, b6⟩ := h2.log
    refine ⟨n1 ++ n2, by rw [b1, a1, List.flatten_append, List.append_assoc], ?_, ?_, ?_, ?_, ?_⟩
    · intro x hx
      rcases List.mem_append.1 hx with hx | hx
      · exact a2 x hx
      · exact b2 x hx
    · intro x hx
      rcases List.mem_append.1 hx with hx | hx
      · exact a3 x hx
      · exact b3 x hx
    · rintro ⟨x, hx, h⟩
      rcases List.mem_append.1 hx with hx | hx
      · exact h2.bad (a4 ⟨x, hx, h⟩)
      · exact b4 ⟨x, hx, h⟩
    · intro h
      rcases b5 h with h | ⟨x, hx, h⟩
      · rcases a5 h with h | ⟨x, hx, h⟩
        · exact .inl h
        · exact .inr ⟨x, List.mem_append_left _ hx, h⟩
      · exact .inr ⟨x, List.mem_append_right _ hx, h⟩
    · intro l x r e hx
      rcases List.append_eq_append_iff.1 e with ⟨l', e1, e2⟩ | ⟨r', e1, e2⟩
      · exact b6 l' x r e2 hx
      · cases r' with
        | nil =>
          rw [List.nil_append] at e2
          exact b6 [] x r (by rw [← e2]; rfl) hx
        | cons y r' =>
          cases e2
          obtain ⟨q1, q2⟩ := a6 l x r' e1 hx
          obtain ⟨q3, q4⟩ := h2.closed q1
          refine ⟨q3, ?_⟩
          subst q2
          have : n2.flatten = [] := by
            rw [q4] at b1
            simpa using b1
          cases n2 with
          | nil => rfl
          | cons z zs =>
            have hz := b2 z (by simp)
            rw [List.flatten_cons] at this
            have hz' := (List.append_eq_nil_iff.1 this).1
            subst hz'
            cases hz
  bad := fun h => h2.bad (h1.bad h)
  closed := fun h => by
    obtain ⟨q1, q2⟩ := h1.closed h
    obtain ⟨q3, q4⟩ := h2.closed q1
    exact ⟨q3, by rw [q4, q2]⟩
  errors := h1.errors.trans h2.errors
  known := fun k b h => h2.known k b (h1.known k b h)
  name := by rw [h2.name, h1.name]

/-- Changes to the fields that aren't part of the record. -/
theorem Later.same {c c' : Ctl (σ × List Event)} (h1 : c'.chan = c.chan) (h2 : c'.bad = c.bad) (h3 : c'.closed = c.closed) (h4 : c.errors <+: c'.errors)
    (h5 : ∀ k b, c.known.lookup k = some b → c'.known.lookup k = some b) (h6 : c'.name = c.name) : Later c c' where
  log := ⟨[], by simp [h1], by simp, by simp, by simp, fun h => .inl (by rw [← h2]; exact h), by simp⟩
  bad := fun h => by rw [h2]; exact h
  closed := fun h => ⟨by rw [h3]; exact h, h1⟩
  errors := h4
  known := h5
  name := h6

theorem doCommand_later (C : Channel σ) (c : Ctl (σ × List Event)) (command : Str) (args : List Str) :
    Later c (c.doCommand (logged C) command args).2 := by
  unfold Ctl.doCommand
  cases hc : c.closed with
  | true => simpa using Later.refl c
  | false =>
    simp only [Bool.false_eq_true, if_false]
    split
    · exact .same rfl rfl hc.symm (List.prefix_refl _) (fun _ _ h => h) rfl
    · rename_i hw
      have hw : isWellFormedWord (c.translate command) = true ∧ args.all isWellFormedWord = true := by
        have := Bool.not_eq_true _ ▸ hw
        simpa using this
      simp only [logged]
      cases h1 : C.send (c.translate command) args c.chan.1 with
      | mk x ch =>
        cases x with
        | error e =>
          refine ⟨⟨[[.sent (c.translate command) args false]], by simp, ?_, ?_, fun _ => rfl, fun _ => .inr ?_, ?_⟩, fun _ => rfl, ?_, List.prefix_refl _,
            fun _ _ h => h, rfl⟩
          · simpa using Exchange.notSent _ _
          · intro x hx cm ag ok h
            simp only [List.mem_singleton] at hx
            subst hx
            simp only [List.mem_singleton] at h
            cases h
            exact hw
          · exact ⟨_, List.mem_singleton.2 rfl, _, List.mem_singleton.2 rfl, rfl⟩
          · intro l x r e hx
            have : x ∈ [[Event.sent (c.translate command) args false]] := by rw [e]; simp
            simp only [List.mem_singleton] at this
            subst this
            simp at hx
          · intro h
            rw [hc] at h
            cases h
        | ok u =>
          simp only
          cases h2 : C.recv ch with
          | mk y ch2 =>
            have key : ∀ (ok bad : Bool) (c' : Ctl (σ × List Event)), (c'.chan.2 = c.chan.2 ++ [.sent (c.translate command) args true] ++ [.received ok]) →
                c'.bad = (c.bad || !ok) → c'.errors = c.errors → c'.known = c.known → c'.name = c.name → Later c c' := by
              intro ok bad c' e1 e2 e3 e4 e5
              refine ⟨⟨[[.sent (c.translate command) args true, .received ok]], by simp [e1], ?_, ?_, ?_, ?_, ?_⟩, ?_, ?_, e3 ▸ List.prefix_refl _, ?_, e5⟩
              · simpa using Exchange.complete _ _ _
              · intro x hx cm ag ok h
                simp only [List.mem_singleton] at hx
                subst hx
                simp only [List.mem_cons, List.not_mem_nil, or_false, reduceCtorEq] at h
                cases h
                exact hw
              · rintro ⟨x, hx, e, he, hf⟩
                simp only [List.mem_singleton] at hx
                subst hx
                simp only [List.mem_cons, List.not_mem_nil, or_false] at he
                rcases he with rfl | rfl
                · cases hf
                · simp only [Event.Fault] at hf
                  rw [e2, hf]
                  simp
              · intro h
                rw [e2] at h
                cases hb : c.bad with
                | true => exact .inl rfl
                | false =>
                  rw [hb] at h
                  refine .inr ⟨_, List.mem_singleton.2 rfl, .received ok, by simp, ?_⟩
                  simpa [Event.Fault] using h
              · intro l x r e hx
                have : x ∈ [[Event.sent (c.translate command) args true, .received ok]] := by rw [e]; simp
                simp only [List.mem_singleton] at this
                subst this
                simp at hx
              · intro h; rw [e2, h]; rfl
              · intro h
                rw [hc] at h
                cases h
              · intro k b h
                rw [e4]
                exact h
            cases y with
            | error e => exact key false true _ rfl (by simp) rfl rfl rfl
            | ok z =>
              obtain ⟨isFailure, response⟩ := z
              cases isFailure with
              | true => exact key true true _ rfl (by simp) rfl rfl rfl
              | false => exact key true true _ rfl (by simp) rfl rfl rfl

theorem safeDoCommand_later (C : Channel σ) (c : Ctl (σ × List Event)) (command : Str) (args : List Str) :
    Later c (c.safeDoCommand (logged C) command args).2 := by
  unfold Ctl.safeDoCommand
  split
  · exact Later.refl c
  · have h := doCommand_later C c command args
    split
    · rename_i e; rw [e] at h; exact h
    · rename_i e; rw [e] at h
      exact h.trans (.same rfl rfl rfl (List.prefix_append _ _) (fun _ _ h => h) rfl)
    · rename_i e; rw [e] at h; exact h

theorem perform_later (C : Channel σ) (safe : Bool) (c : Ctl (σ × List Event)) (command : Str) (args : List Str) :
    Later c (c.perform (logged C) safe command args).2 := by
  unfold Ctl.perform
  split
  · exact safeDoCommand_later C c command args
  · have h := doCommand_later C c command args
    split
    · rename_i e; rw [e] at h; exact h
    · rename_i e; rw [e] at h; exact h

theorem doCommand_known (C : Channel σ) (c : Ctl σ) (command : Str) (args : List Str) :
    (c.doCommand C command args).2.known = c.known := by
  unfold Ctl.doCommand
  split
  · rfl
  · simp only
    split
    · rfl
    · split
      · rfl
      · split
        · rfl
        · split <;> rfl

theorem safeDoCommand_known (C : Channel σ) (c : Ctl σ) (command : Str) (args : List Str) :
    (c.safeDoCommand C command args).2.known = c.known := by
  unfold Ctl.safeDoCommand
  split
  · rfl
  · have h := doCommand_known C c command args
    split
    · rename_i e; rw [e] at h; exact h
    · rename_i e; rw [e] at h; exact h
    · rename_i e; rw [e] at h; exact h

theorem perform_known (C : Channel σ) (safe : Bool) (c : Ctl σ) (command : Str) (args : List Str) :
    (c.perform C safe command args).2.known = c.known := by
  unfold Ctl.perform
  split
  · exact safeDoCommand_known C c command args
  · have h := doCommand_known C c command args
    split
    · rename_i e; rw [e] at h; exact h
    · rename_i e; rw [e] at h; exact h

theorem knownCommand_later (C : Channel σ) (safe : Bool) (c : Ctl (σ × List Event)) (command : Str) :
    Later c (c.knownCommand (logged C) safe command).2 := by
  unfold Ctl.knownCommand
  split
  · exact Later.refl c
  · rename_i hl
    have h := perform_later C safe c "known_command".toList [c.translate command]
    have hk := perform_known (logged C) safe c "known_command".toList [c.translate command]
    have add : ∀ (c' : Ctl (σ × List Event)) (b : Bool), Later c c' → c'.known = c.known → Later c { c' with known := (command, b) :: c'.known } := by
      intro c' b h1 h2
      refine h1.trans (.same rfl rfl rfl (List.prefix_refl _) ?_ rfl)
      intro k b' hb
      simp only [List.lookup]
      rw [h2] at hb ⊢
      by_cases hkc : k = command
      · subst hkc
        rw [hl] at hb
        cases hb
      · have : (k == command) = false := by simpa using hkc
        rw [this]
        exact hb
    split
    · rename_i e; rw [e] at h hk; exact add _ _ h hk
    · rename_i e; rw [e] at h hk; exact add _ _ h hk
    · rename_i e; rw [e] at h; exact h

/-- An attempt to close the channel, followed by marking it closed (if it succeeded, or in any case). -/
theorem closing_later (C : Channel σ) (c c' : Ctl (σ × List Event)) (hc : c.closed = false) (hch : c'.chan = ((logged C).close c.chan).2)
    (hok : ((logged C).close c.chan).1 = none → c'.closed = true) (hb : c'.bad = c.bad) (he : c.errors <+: c'.errors) (hk : c'.known = c.known)
    (hn : c'.name = c.name) : Later c c' := by
  refine ⟨⟨[[.closed (decide ((C.close c.chan.1).1 = none))]], ?_, ?_, by simp, ?_, fun h => .inl (by rw [← hb]; exact h), ?_⟩, ?_, ?_, he, ?_, hn⟩
  · rw [hch]; rfl
  · simpa using Exchange.close _
  · rintro ⟨x, hx, e, he, hf⟩
    simp only [List.mem_singleton] at hx
    subst hx
    simp only [List.mem_singleton] at he
    subst he
    cases hf
  · intro l x r e hx
    cases l with
    | nil =>
      cases e
      simp only [List.mem_singleton, Event.closed.injEq] at hx
      refine ⟨hok ?_, rfl⟩
      have : (C.close c.chan.1).1 = none := by simpa using hx.symm
      exact this
    | cons y l =>
      injection e with e1 e2
      simp at e2
  · intro h; rw [hb]; exact h
  · intro h; rw [hc] at h; cases h
  · intro k b h; rw [hk]; exact h

theorem close_later (C : Channel σ) (c : Ctl (σ × List Event)) : Later c (c.close (logged C)).2 := by
  unfold Ctl.close
  cases hc : c.closed with
  | true => simpa using Later.refl c
  | false =>
    simp only [Bool.false_eq_true, if_false]
    cases hcl : (logged C).close c.chan with
    | mk x ch =>
      cases x with
      | some msg => exact closing_later C c _ hc (by rw [hcl]) (by rw [hcl]; simp) rfl (List.prefix_refl _) rfl rfl
      | none => exact closing_later C c _ hc (by rw [hcl]) (fun _ => rfl) rfl (List.prefix_refl _) rfl rfl

theorem doCommand_open (C : Channel σ) (c : Ctl σ) (command : Str) (args : List Str) (h : c.closed = false) :
    (c.doCommand C command args).2.closed = false := by
  unfold Ctl.doCommand
  simp only [h, Bool.false_eq_true, if_false]
  split
  · rfl
  · split
    · rfl
    · split
      · rfl
      · split <;> rfl

theorem safeDoCommand_open (C : Channel σ) (c : Ctl σ) (command : Str) (args : List Str) (h : c.closed = false) :
    (c.safeDoCommand C command args).2.closed = false := by
  unfold Ctl.safeDoCommand
  split
  · exact h
  · have h := doCommand_open C c command args h
    split
    · rename_i e; rw [e] at h; exact h
    · rename_i e; rw [e] at h; exact h
    · rename_i e; rw [e] at h; exact h

theorem safeQuit_open (C : Channel σ) (c : Ctl σ) (h : c.closed = false) : (c.safeQuit C).2.closed = false := by
  unfold Ctl.safeQuit
  split
  · exact h
  · have h := safeDoCommand_open C c "quit".toList [] h
    split
    · rename_i e; rw [e] at h; exact h
    · rename_i e; rw [e] at h; exact h
    · rename_i e; rw [e] at h; exact h

theorem safeQuit_later (C : Channel σ) (c : Ctl (σ × List Event)) : Later c (c.safeQuit (logged C)).2 := by
  unfold Ctl.safeQuit
  split
  · exact Later.refl c
  · have h := safeDoCommand_later C c "quit".toList []
    split
    · rename_i e; rw [e] at h
      exact h.trans (.same rfl rfl rfl (List.prefix_append _ _) (fun _ _ h => h) rfl)
    · rename_i e; rw [e] at h; exact h
    · rename_i e; rw [e] at h; exact h

theorem safeClose_later (C : Channel σ) (c : Ctl (σ × List Event)) : Later c (c.safeClose (logged C)).2 := by
  unfold Ctl.safeClose
  cases hc : c.closed with
  | true => simpa using Later.refl c
  | false =>
    simp only [Bool.false_eq_true, if_false]
    have h := safeQuit_later C c
    have ho := safeQuit_open (logged C) c hc
    cases hq : c.safeQuit (logged C) with
    | mk x c1 =>
      rw [hq] at h ho
      cases x with
      | error e => exact h
      | ok u =>
        simp only
        cases hcl : (logged C).close c1.chan with
        | mk x ch =>
          cases x with
          | some msg => exact h.trans (closing_later C c1 _ ho (by rw [hcl]) (fun _ => rfl) rfl (List.prefix_append _ _) rfl rfl)
          | none => exact h.trans (closing_later C c1 _ ho (by rw [hcl]) (fun _ => rfl) rfl (List.prefix_refl _) rfl rfl)

theorem call_later (C : Channel σ) (isTwo : Str → Bool) (c : Ctl (σ × List Event)) (call : Call) : Later c (call.apply (logged C) isTwo c) := by
  cases call with
  | doCommand command args => exact doCommand_later C c command args
  | safeDoCommand command args => exact safeDoCommand_later C c command args
  | knownCommand command => exact knownCommand_later C false c command
  | safeKnownCommand command => exact knownCommand_later C true c command
  | checkProtocolVersion =>
    show Later c (c.checkProtocolVersion (logged C) isTwo).2
    unfold Ctl.checkProtocolVersion
    have h := doCommand_later C c "protocol_version".toList []
    split
    · rename_i e; rw [e] at h; exact h
    · rename_i e; rw [e] at h; exact h
    · rename_i e; rw [e] at h
      split <;> exact h
  | listCommands =>
    show Later c (c.listCommands (logged C)).2
    unfold Ctl.listCommands
    have h := doCommand_later C c "list_commands".toList []
    split
    · rename_i e; rw [e] at h; exact h
    · rename_i e; rw [e] at h; exact h
  | close => exact close_later C c
  | safeClose => exact safeClose_later C c
  | setAliases aliases => exact .same rfl rfl rfl (List.prefix_refl _) (fun _ _ h => h) rfl

theorem applyAll_later (C : Channel σ) (isTwo : Str → Bool) : ∀ (calls : List Call) (c : Ctl (σ × List Event)),
    Later c (applyAll (logged C) isTwo c calls)
  | [], c => Later.refl c
  | call :: calls, c => (call_later C isTwo c call).trans (applyAll_later C isTwo calls _)

/-- C57: whatever calls are made, with any engine behind the channel, the controller never sends a command before the response to
the previous one has been read (unless reading or sending failed); what it sends is always well-formed; the channel is
marked bad exactly if a GtpChannelError has occurred; nothing is sent, read or closed after a successful close; and from
then on no call touches the channel. -/
theorem C57_protocol (C : Channel σ) (isTwo : Str → Bool) (chan : σ) (name : Str) (calls : List Call) :
    ∃ (log : List (List Event)) (c : Ctl (σ × List Event)), c = applyAll (logged C) isTwo (Ctl.init (chan, []) name) calls ∧
      c.chan.2 = log.flatten ∧ (∀ x ∈ log, Exchange x) ∧
      (∀ x ∈ log, ∀ command args ok, .sent command args ok ∈ x → isWellFormedWord command = true ∧ args.all isWellFormedWord = true) ∧
      (c.bad = true ↔ ∃ x ∈ log, ∃ e ∈ x, e.Fault) ∧
      (∀ l x r, log = l ++ x :: r → .closed true ∈ x → c.closed = true ∧ r = []) ∧
      (c.closed = true → ∀ more, (applyAll (logged C) isTwo c more).chan = c.chan ∧ (applyAll (logged C) isTwo c more).closed = true) := by
  obtain ⟨new, a1, a2, a3, a4, a5, a6⟩ := (applyAll_later C isTwo calls (Ctl.init (chan, []) name)).log
  refine ⟨new, _, rfl, by rw [a1]; simp [Ctl.init], a2, a3, ⟨?_, a4⟩, a6, ?_⟩
  · intro h
    rcases a5 h with h | h
    · cases h
    · exact h
  · intro h more
    obtain ⟨q1, q2⟩ := (applyAll_later C isTwo more _).closed h
    exact ⟨q2, q1⟩

/-- C57: the answer of known_command and safe_known_command for a command never changes, and the engine is asked at most once: after
any further calls both give the first answer, without using the channel. -/
theorem C57_known_cached (C : Channel σ) (isTwo : Str → Bool) (c : Ctl (σ × List Event)) (safe safe' : Bool) (command : Str) (b : Bool)
    (c' : Ctl (σ × List Event)) (h : c.knownCommand (logged C) safe command = (.ok b, c')) (calls : List Call) :
    (applyAll (logged C) isTwo c' calls).knownCommand (logged C) safe' command = (.ok b, applyAll (logged C) isTwo c' calls) := by
  have hk : c'.known.lookup command = some b := by
    unfold Ctl.knownCommand at h
    split at h
    · rename_i hl
      cases h
      exact hl
    · split at h
      · cases h; simp [List.lookup]
      · cases h; simp [List.lookup]
      · cases h
  have := (applyAll_later C isTwo calls c').known command b hk
  generalize applyAll (logged C) isTwo c' calls = c2 at this ⊢
  unfold Ctl.knownCommand
  rw [this]

/-- C57: `list_commands` gives the lines of the engine's response which are acceptable names of commands (after removing white space around them), in order; other
lines are ignored. -/
theorem C57_list_commands (C : Channel σ) (c : Ctl σ) :
    (∀ e, (c.doCommand C "list_commands".toList []).1 = .error e → c.listCommands C = (.error e, (c.doCommand C "list_commands".toList []).2)) ∧
    (∀ response, (c.doCommand C "list_commands".toList []).1 = .ok response → ∃ l, c.listCommands C = (.ok l, (c.doCommand C "list_commands".toList []).2) ∧
      (∀ x, x ∈ l ↔ isWellFormedWord x = true ∧ ∃ line ∈ splitOn '\n' response, x = strip line) ∧
      l.Sublist ((splitOn '\n' response).map strip)) := by
  unfold Ctl.listCommands
  cases c.doCommand C "list_commands".toList [] with
  | mk r c' =>
    cases r with
    | error e => exact ⟨fun e' h => by cases h; rfl, fun r h => nomatch h⟩
    | ok response =>
      refine ⟨fun e h => (nomatch h), fun r h => ?_⟩
      cases h
      refine ⟨_, rfl, fun x => ?_, List.filter_sublist⟩
      rw [List.mem_filter, List.mem_map]
      constructor
      · rintro ⟨⟨line, h1, rfl⟩, h2⟩
        exact ⟨h2, line, h1, rfl⟩
      · rintro ⟨h2, line, h1, rfl⟩
        exact ⟨⟨line, h1, rfl⟩, h2⟩

/-- The words a call would send are well-formed. -/
def WordsOK (c : Ctl σ) (command : Str) (args : List Str) : Prop :=
  isWellFormedWord (c.translate command) = true ∧ ∀ a ∈ args, isWellFormedWord a = true

theorem doCommand_value (C : Channel σ) (c : Ctl σ) (command : Str) (args : List Str) (h : WordsOK c command args) :
    (c.doCommand C command args).1 ≠ .error .value := by
  unfold Ctl.doCommand
  split
  · simp
  · have : isWellFormedWord (c.translate command) = true ∧ args.all isWellFormedWord = true := ⟨h.1, List.all_eq_true.2 h.2⟩
    simp only [this.1, this.2, Bool.and_self, Bool.not_true, Bool.false_eq_true, if_false]
    split
    · simp
    · split
      · simp
      · split <;> simp

theorem doCommand_open_exc (C : Channel σ) (c : Ctl σ) (command : Str) (args : List Str) (h : c.closed = false) :
    (c.doCommand C command args).1 ≠ .error .channelIsClosed := by
  unfold Ctl.doCommand
  simp only [h, Bool.false_eq_true, if_false]
  split
  · simp
  · split
    · simp
    · split
      · simp
      · split <;> simp

theorem doCommand_fault (C : Channel σ) (c : Ctl σ) (command : Str) (args : List Str) :
    (∀ e, (c.doCommand C command args).1 = .error (.channel e) → (c.doCommand C command args).2.bad = true) ∧
    (c.doCommand C command args).2.errors = c.errors := by
  unfold Ctl.doCommand
  split
  · simp
  · simp only
    split
    · simp
    · split
      · simp
      · split
        · simp
        · split <;> simp

/-- C57: do_command sends the command (under its alias) and reads the response: the three ways it can end, on an open channel, if the
command is well-formed. -/
theorem C57_do_command (C : Channel σ) (c : Ctl σ) (command : Str) (args : List Str) (hc : c.closed = false) (hw : WordsOK c command args) :
    (∀ e ch, C.send ((c.aliases.lookup command).getD command) args c.chan = (.error e, ch) →
      ∃ msg, c.doCommand C command args = (.error (.channel ⟨e.kind, msg⟩), { c with chan := ch, isFirst := false, bad := true }) ∧ e.msg <:+ msg) ∧
    (∀ ch e ch', C.send ((c.aliases.lookup command).getD command) args c.chan = (.ok (), ch) → C.recv ch = (.error e, ch') →
      ∃ msg, c.doCommand C command args = (.error (.channel ⟨e.kind, msg⟩), { c with chan := ch', isFirst := false, bad := true }) ∧ e.msg <:+ msg) ∧
    (∀ ch response ch', C.send ((c.aliases.lookup command).getD command) args c.chan = (.ok (), ch) → C.recv ch = (.ok (true, response), ch') →
      ∃ msg, c.doCommand C command args = (.error (.badResponse msg (some response)), { c with chan := ch', isFirst := false }) ∧ response <:+ msg) ∧
    (∀ ch response ch', C.send ((c.aliases.lookup command).getD command) args c.chan = (.ok (), ch) → C.recv ch = (.ok (false, response), ch') →
      c.doCommand C command args = (.ok response, { c with chan := ch', isFirst := false })) := by
  have h1 : isWellFormedWord (c.translate command) = true ∧ args.all isWellFormedWord = true := ⟨hw.1, List.all_eq_true.2 hw.2⟩
  have ht : (c.aliases.lookup command).getD command = c.translate command := rfl
  rw [ht]
  refine ⟨?_, ?_, ?_, ?_⟩
  · intro e ch hs
    unfold Ctl.doCommand
    simp only [hc, h1.1, h1.2, Bool.and_self, Bool.not_true, Bool.false_eq_true, if_false, hs]
    exact ⟨_, rfl, List.suffix_append _ _⟩
  · intro ch e ch' hs hr
    unfold Ctl.doCommand
    simp only [hc, h1.1, h1.2, Bool.and_self, Bool.not_true, Bool.false_eq_true, if_false, hs, hr]
    exact ⟨_, rfl, List.suffix_append _ _⟩
  · intro ch response ch' hs hr
    unfold Ctl.doCommand
    simp only [hc, h1.1, h1.2, Bool.and_self, Bool.not_true, Bool.false_eq_true, if_false, if_true, hs, hr]
    exact ⟨_, rfl, List.suffix_append _ _⟩
  · intro ch response ch' hs hr
    unfold Ctl.doCommand
    simp only [hc, h1.1, h1.2, Bool.and_self, Bool.not_true, Bool.false_eq_true, if_false, hs, hr]

/-- C57: safe_do_command. On a closed or bad channel it returns None and does nothing. Otherwise it does what do_command does, except that
a GtpChannelError isn't raised: its message is put aside, None is returned, and the channel is bad from then on. The only
exceptions are BadGtpResponse, and ValueError for an ill-formed word. -/
theorem C57_safe_do_command (C : Channel σ) (c : Ctl σ) (command : Str) (args : List Str) :
    (c.bad = true ∨ c.closed = true → c.safeDoCommand C command args = (.ok none, c)) ∧
    (c.bad = false → c.closed = false →
      (∀ r c', c.doCommand C command args = (.ok r, c') → c.safeDoCommand C command args = (.ok (some r), c')) ∧
      (∀ e c', c.doCommand C command args = (.error (.channel e), c') →
        c.safeDoCommand C command args = (.ok none, { c' with errors := c.errors ++ [e.msg] }) ∧ c'.bad = true) ∧
      (∀ m g c', c.doCommand C command args = (.error (.badResponse m g), c') → c.safeDoCommand C command args = (.error (.badResponse m g), c'))) ∧
    (∀ e, (c.safeDoCommand C command args).1 = .error e → (∃ m g, e = .badResponse m g) ∨ e = .value ∧ ¬ WordsOK c command args) := by
  refine ⟨?_, ?_, ?_⟩
  · intro h
    unfold Ctl.safeDoCommand
    rw [if_pos (by simpa using h)]
  · intro hb hc
    have hnot : ¬ (c.bad || c.closed) = true := by simp [hb, hc]
    refine ⟨?_, ?_, ?_⟩
    · intro r c' h
      unfold Ctl.safeDoCommand
      rw [if_neg hnot, h]
    · intro e c' h
      have hf := doCommand_fault C c command args
      rw [h] at hf
      unfold Ctl.safeDoCommand
      rw [if_neg hnot, h]
      have hf2 : c'.errors = c.errors := hf.2
      exact ⟨by simp only [hf2], hf.1 e rfl⟩
    · intro m g c' h
      unfold Ctl.safeDoCommand
      rw [if_neg hnot, h]
  · intro e he
    have hv := doCommand_value C c command args
    have ho := doCommand_open_exc C c command args
    unfold Ctl.safeDoCommand at he
    split at he
    · cases he
    · rename_i hnot
      simp only [Bool.or_eq_true, not_or, Bool.not_eq_true] at hnot
      split at he
      · cases he
      · cases he
      · rename_i e' c' hn hd
        cases he
        rw [hd] at hv ho
        cases e with
        | badResponse m g => exact .inl ⟨m, g, rfl⟩
        | channel x => exact absurd rfl (hn x)
        | value => exact .inr ⟨rfl, fun h => hv h rfl⟩
        | channelIsClosed => exact absurd rfl (ho hnot.2)

/-- C57: safe_known_command never raises an exception (if the command and known_command, under their aliases, are well-formed); on a closed or bad channel it
gives the answer it has, or False, without using the channel. -/
theorem C57_safe_known_command (C : Channel σ) (c : Ctl σ) (command : Str) :
    (WordsOK c "known_command".toList [c.translate command] → ∃ b, (c.knownCommand C true command).1 = .ok b) ∧
    (c.bad = true ∨ c.closed = true →
      (c.knownCommand C true command).1 = .ok ((c.known.lookup command).getD false) ∧ (c.knownCommand C true command).2.chan = c.chan) := by
  obtain ⟨h1, _, h3⟩ := C57_safe_do_command C c "known_command".toList [c.translate command]
  constructor
  · intro hw
    unfold Ctl.knownCommand
    split
    · exact ⟨_, rfl⟩
    · split
      · exact ⟨_, rfl⟩
      · exact ⟨_, rfl⟩
      · rename_i hn hp
        simp only [Ctl.perform, if_true] at hp
        rw [hp] at h3
        rcases h3 _ rfl with ⟨m, g, rfl⟩ | ⟨rfl, h⟩
        · exact absurd rfl (hn m g)
        · exact absurd hw h
  · intro hb
    unfold Ctl.knownCommand
    cases hl : c.known.lookup command with
    | some r => exact ⟨rfl, rfl⟩
    | none =>
      simp only [Ctl.perform, if_true, h1 hb]
      simp

/-- C57: safe_close doesn't raise any exception (if quit isn't an alias of something ill-formed) and the controller is closed afterwards.  It
attempts to close the channel exactly once, after sending `quit` if the channel isn't bad; if the controller is
already closed it does nothing. -/
theorem C57_safe_close (C : Channel σ) (c : Ctl (σ × List Event)) (hq : isWellFormedWord (c.translate "quit".toList) = true) :
    ∃ c', c.safeClose (logged C) = (.ok (), c') ∧ c'.closed = true ∧
      (c.closed = true → c' = c) ∧
      (c.closed = false → c.bad = true → ∃ ok, c'.chan.2 = c.chan.2 ++ [.closed ok]) ∧
      (c.closed = false → c.bad = false → ∃ ok x, c'.chan.2 = c.chan.2 ++ .sent (c.translate "quit".toList) [] x :: (if x then [.received ok] else []) ++
        [.closed (decide (((logged C).close (c.safeQuit (logged C)).2.chan).1 = none))]) := by
  cases hc : c.closed with
  | true => exact ⟨c, by unfold Ctl.safeClose; simp [hc], hc, fun _ => rfl, (fun h => nomatch h), (fun h => nomatch h)⟩
  | false =>
    have fin : ∀ c1 : Ctl (σ × List Event), c.safeQuit (logged C) = (.ok (), c1) → ∃ c', c.safeClose (logged C) = (.ok (), c') ∧ c'.closed = true ∧
        c'.chan.2 = c1.chan.2 ++ [.closed (decide (((logged C).close c1.chan).1 = none))] := by
      intro c1 h1
      unfold Ctl.safeClose
      simp only [hc, Bool.false_eq_true, if_false, h1]
      have h2 : ((logged C).close c1.chan).2.2 = c1.chan.2 ++ [.closed (decide (((logged C).close c1.chan).1 = none))] := rfl
      revert h2
      generalize (logged C).close c1.chan = z
      obtain ⟨x, ch⟩ := z
      intro h2
      cases x with
      | some msg => exact ⟨_, rfl, rfl, h2⟩
      | none => exact ⟨_, rfl, rfl, h2⟩
    cases hb : c.bad with
    | true =>
      obtain ⟨c', a1, a2, a3⟩ := fin c (by unfold Ctl.safeQuit; simp [hb])
      exact ⟨c', a1, a2, (fun h => nomatch h), fun _ _ => ⟨_, a3⟩, fun _ h => nomatch h⟩
    | false =>
      have hw : WordsOK c "quit".toList [] := ⟨hq, by simp⟩
      obtain ⟨_, s2, s3⟩ := C57_safe_do_command (logged C) c "quit".toList []
      obtain ⟨s4, s5, s6⟩ := s2 hb hc
      obtain ⟨d1, d2, d3, d4⟩ := C57_do_command (logged C) c "quit".toList [] hc hw
      rw [show (c.aliases.lookup "quit".toList).getD "quit".toList = c.translate "quit".toList from rfl] at d1 d2 d3 d4
      have key : ∃ c1 x ok, c.safeQuit (logged C) = (.ok (), c1) ∧ c1.chan.2 = c.chan.2 ++ .sent (c.translate "quit".toList) [] x :: (if x then [.received ok] else []) := by
        unfold Ctl.safeQuit
        simp only [hb, Bool.false_eq_true, if_false]
        simp only [logged] at d1 d2 d3 d4 s4 s5 s6 ⊢
        cases h1 : C.send (c.translate "quit".toList) [] c.chan.1 with
        | mk x ch =>
          rw [h1] at d1 d2 d3 d4
          cases x with
          | error e =>
            obtain ⟨msg, d1, _⟩ := d1 e _ rfl
            obtain ⟨k, _⟩ := s5 _ _ d1
            rw [k]
            exact ⟨_, false, true, rfl, rfl⟩
          | ok u =>
            simp only at d2 d3 d4
            cases h2 : C.recv ch with
            | mk y ch2 =>
              cases y with
              | error e =>
                obtain ⟨msg, d2, _⟩ := d2 _ e _ rfl (by rw [h2])
                obtain ⟨k, _⟩ := s5 _ _ d2
                rw [k]
                exact ⟨_, true, false, rfl, by simp⟩
              | ok z =>
                obtain ⟨f, response⟩ := z
                cases f with
                | true =>
                  obtain ⟨msg, d3, _⟩ := d3 _ response _ rfl (by rw [h2])
                  rw [s6 _ _ _ d3]
                  exact ⟨_, true, true, rfl, by simp⟩
                | false =>
                  have d4 := d4 _ response _ rfl (by rw [h2])
                  rw [s4 _ _ d4]
                  exact ⟨_, true, true, rfl, by simp⟩
      obtain ⟨c1, x, ok, k1, k2⟩ := key
      obtain ⟨c', a1, a2, a3⟩ := fin c1 k1
      refine ⟨c', a1, a2, (fun h => nomatch h), (fun _ h => nomatch h), fun _ _ => ⟨ok, x, ?_⟩⟩
      rw [a3, k2, k1]

theorem knownCommand_errors (C : Channel σ) (c : Ctl σ) (command : Str) (hi : c.bad = true → c.errors ≠ [])
    (hs : (c.safeDoCommand C "known_command".toList [c.translate command]).2.bad = true →
      (c.safeDoCommand C "known_command".toList [c.translate command]).2.errors ≠ []) :
    (c.knownCommand C true command).2.bad = true → (c.knownCommand C true command).2.errors ≠ [] := by
  unfold Ctl.knownCommand
  split
  · exact hi
  · simp only [Ctl.perform, if_true]
    split <;> (rename_i h; rw [h] at hs; exact hs)

theorem safeDoCommand_errors (C : Channel σ) (c : Ctl σ) (command : Str) (args : List Str) (hi : c.bad = true → c.errors ≠ []) :
    (c.safeDoCommand C command args).2.bad = true → (c.safeDoCommand C command args).2.errors ≠ [] := by
  unfold Ctl.safeDoCommand
  split
  · exact hi
  · rename_i hnot
    simp only [Bool.or_eq_true, not_or, Bool.not_eq_true] at hnot
    have hb : ∀ r c', c.doCommand C command args = (r, c') → (∀ e, r ≠ .error (.channel e)) → c'.bad = true → c.bad = true := by
      intro r c' h hr
      unfold Ctl.doCommand at h
      split at h
      · cases h; exact id
      · simp only at h
        split at h
        · cases h; exact id
        · split at h
          · cases h; exact absurd rfl (hr _)
          · split at h
            · cases h; exact absurd rfl (hr _)
            · split at h <;> (cases h; exact id)
    split
    · rename_i h
      intro h'
      have := hb _ _ h (by simp) h'
      rw [hnot.1] at this
      cases this
    · intro _
      simp
    · rename_i hn h
      intro h'
      have := hb _ _ h (by intro e he; injection he with he; exact hn e he) h'
      rw [hnot.1] at this
      cases this

theorem safeClose_errors (C : Channel σ) (c : Ctl σ) (hi : c.bad = true → c.errors ≠ []) :
    (c.safeClose C).2.bad = true → (c.safeClose C).2.errors ≠ [] := by
  have hq : (c.safeQuit C).2.bad = true → (c.safeQuit C).2.errors ≠ [] := by
    have hs := safeDoCommand_errors C c "quit".toList [] hi
    unfold Ctl.safeQuit
    split
    · exact hi
    · split
      · simp
      · rename_i h; rw [h] at hs; exact hs
      · rename_i h; rw [h] at hs; exact hs
  unfold Ctl.safeClose
  split
  · exact hi
  · split
    · rename_i h; rw [h] at hq; exact hq
    · rename_i h
      rw [h] at hq
      split
      · simp
      · exact hq

/-- C57: no channel error is lost. If only the safe methods have been used, and a GtpChannelError occurred sending a command or reading
a response, retrieve_error_messages has something to report. -/
theorem C57_safe_errors (C : Channel σ) (isTwo : Str → Bool) (chan : σ) (name : Str) (calls : List Call) (hs : ∀ c ∈ calls, c.Safe)
    (hf : ∃ e ∈ (applyAll (logged C) isTwo (Ctl.init (chan, []) name) calls).chan.2, e.Fault) :
    (applyAll (logged C) isTwo (Ctl.init (chan, []) name) calls).errors ≠ [] := by
  have inv : ∀ (calls : List Call) (c : Ctl (σ × List Event)), (∀ c ∈ calls, c.Safe) → (c.bad = true → c.errors ≠ []) →
      (applyAll (logged C) isTwo c calls).bad = true → (applyAll (logged C) isTwo c calls).errors ≠ [] := by
    intro calls
    induction calls with
    | nil => intro c _ h; exact h
    | cons call calls ih =>
      intro c hs hi
      refine ih _ (fun x hx => hs x (List.mem_cons_of_mem _ hx)) ?_
      have h1 := hs call List.mem_cons_self
      cases call with
      | safeDoCommand command args => exact safeDoCommand_errors _ c command args hi
      | safeKnownCommand command => exact knownCommand_errors _ c command hi (safeDoCommand_errors _ c _ _ hi)
      | safeClose => exact safeClose_errors _ c hi
      | setAliases aliases => exact hi
      | _ => exact absurd h1 (by simp [Call.Safe])
  obtain ⟨log, c, hc, h1, _, _, h4, _, _⟩ := C57_protocol C isTwo chan name calls
  rw [← hc] at hf ⊢
  obtain ⟨e, he, hf⟩ := hf
  rw [h1] at he
  obtain ⟨x, hx, he⟩ := List.mem_flatten.1 he
  have := inv calls (Ctl.init (chan, []) name) hs (by simp [Ctl.init])
  rw [← hc] at this
  exact this (h4.2 ⟨x, hx, e, he, hf⟩)

/-! ### A concrete case -/

/-- An engine with a counter, which knows `known_command`, `count` and `quit`. -/
def exampleRun (n : Nat) (command : Str) (args : List Str) : (Bool × Str × Bool) × Nat :=
  if command = "known_command".toList then ((false, if args = ["count".toList] then "true".toList else "false".toList, false), n)
  else if command = "count".toList then ((false, [], false), n + 1)
  else if command = "quit".toList then ((false, [], true), n)
  else ((true, "unknown command".toList, false), n)

/-- The calls of the example: a command, a query, an alias, a failure, `quit`, and a command after the engine has gone. -/
def exampleCalls : List Call :=
  [.safeDoCommand "count".toList [], .safeKnownCommand "count".toList, .setAliases [("name".toList, "count".toList)], .safeDoCommand "name".toList [],
    .safeDoCommand "wrong".toList [], .safeKnownCommand "count".toList, .safeDoCommand "quit".toList [], .safeDoCommand "count".toList [], .safeClose]

/-- C57: the example, over an Internal_gtp_channel. -/
theorem C57_witness :
    (∀ c ∈ exampleCalls, c.Safe) ∧
    (applyAll (logged (internalChannel exampleRun)) (fun _ => true) (Ctl.init (⟨0, [], false⟩, []) "x".toList) exampleCalls).chan.1.engine = 2 ∧
    (applyAll (logged (internalChannel exampleRun)) (fun _ => true) (Ctl.init (⟨0, [], false⟩, []) "x".toList) exampleCalls).chan.2 =
      [.sent "count".toList [] true, .received true, .sent "known_command".toList ["count".toList] true, .received true,
        .sent "count".toList [] true, .received true, .sent "wrong".toList [] true, .received true, .sent "quit".toList [] true, .received true,
        .sent "count".toList [] false, .closed true] ∧
    (applyAll (logged (internalChannel exampleRun)) (fun _ => true) (Ctl.init (⟨0, [], false⟩, []) "x".toList) exampleCalls).errors =
      ["error sending 'count' to x:\nengine has ended the session".toList] ∧
    WordsOK (Ctl.init (⟨0, [], false⟩ : Internal Nat) "x".toList) "known_command".toList ["count".toList] := by
  refine ⟨?_, by decide +kernel, by decide +kernel, by decide +kernel, ?_, ?_⟩
  · intro c hc
    simp only [exampleCalls, List.mem_cons, List.not_mem_nil, or_false] at hc
    rcases hc with rfl | rfl | rfl | rfl | rfl | rfl | rfl | rfl | rfl <;> trivial
  · decide +kernel
  · intro a ha
    rw [List.mem_singleton.1 ha]
    decide +kernel

end Gomill.Gtp
