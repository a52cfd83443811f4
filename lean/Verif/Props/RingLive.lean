import Verif.Lemmas.RingLiveRun
import Verif.Props.GtpProxy
import Verif.Props.SgfText
/-
C95: the log, the display, and stopping a run. C96: the screen. gomill/ringmasters.py, gomill/ringmaster_presenters.py, gomill/terminal_input.py.
-/
namespace Gomill.Ring.Live
open Jobs
variable {σ J X η V E : Type} {C : Competition σ J X η V E} {T : Texts σ J X η} {quiet : Bool} {workers : Option Nat} {mg : Option Int} {v0 : Nat} {d0 : Option (Nat × V)}

/-! ### The log and the display -/

/-- C95: everything that happens in a run is told, in the right order and at once: see `Told`. What is before (`p`) and after (`r`) is what has been done so far; so after a crash
at any point, the log, the history, the status file and the display are those of some `p`. -/
theorem C95_told {d : Desk σ J X V E} {exc : Option (DExc E)} (h : Life C T quiet workers mg v0 d0 d exc) {p r : List (Eff σ J X V E)} {a : Eff σ J X V E}
    (ht : d.trace = p ++ a :: r) : Told C T quiet v0 (exc ≠ none) p a r := h.inv.told p a r ht

/-- C95: the record of C88 is part of this one; and the status file is the one written last. -/
theorem C95_record {d : Desk σ J X V E} {exc : Option (DExc E)} (h : Life C T quiet workers mg v0 d0 d exc) :
    actsOf d.trace = d.rm.acts ∧ d.rm.disk = (written d.trace).getLast?.or d0 := ⟨h.inv.acts, h.inv.disk⟩

/-- C95: the log has the response, its warnings and its log entries (and what the competition logs) before the competition's method returns; so even if it raises an exception. -/
theorem C95_logged_first (d : Desk σ J X V E) (e : LEnv η) (j : J) (x : X) :
    (d.trace ++ responseShown T d.screen.quiet (C.gameId j) x ++ heard (T.resultLog e.call j x d.rm.comp)) <+: (d.processResponse C T e j x).2.trace ∧
    (d.trace ++ warned d.screen.quiet ("game ".toList ++ C.gameId j ++ " -- ".toList ++ e.message)) <+: (d.processError C T e j).2.trace := by
  constructor
  · obtain ⟨_, ht⟩ := announced_facts (C := C) (T := T) d e j x
    rw [List.append_assoc, ← ht, processResponse_eq]
    split
    · exact List.prefix_append _ _
    · split
      · exact List.prefix_append _ _
      · split
        · show _ <+: (Desk.say _ _ _).trace
          rw [say_results_trace]
          exact (List.prefix_append _ _).trans (List.prefix_append _ _)
        · exact List.prefix_append _ _
  · obtain ⟨_, ht⟩ := alarmed_facts (C := C) (T := T) d e j
    have hp : (d.trace ++ warned d.screen.quiet ("game ".toList ++ C.gameId j ++ " -- ".toList ++ e.message)) <+: (d.alarmed C T e j).trace := by
      rw [ht, ← List.append_assoc]; exact List.prefix_append _ _
    refine hp.trans ?_
    rw [processError_eq]
    split
    · exact List.prefix_append _ _
    · split
      · exact List.prefix_append _ _
      · split
        · split
          · show _ <+: (Desk.say _ _ _).trace ++ _
            rw [say_warnings_trace]
            exact ((List.prefix_append _ _).trans (List.prefix_append _ _)).trans (List.prefix_append _ _)
          · exact List.prefix_append _ _
        · exact List.prefix_append _ _

/-- C95: in quiet mode, nothing is written to stdout, and stderr has just the warnings, in order; otherwise, nothing is written to stderr. -/
theorem C95_quiet {d : Desk σ J X V E} {exc : Option (DExc E)} (h : Life C T quiet workers mg v0 d0 d exc) :
    (quiet = true → (∀ s, .out s ∉ d.trace) ∧ .clear ∉ d.trace ∧
      d.trace.filterMap (fun a => match a with | .err s => some s | _ => none) = said .warnings d.trace) ∧
    (quiet = false → ∀ s, .err s ∉ d.trace) := by
  have hin : ∀ {a : Eff σ J X V E}, a ∈ d.trace → ∃ p r, Told C T quiet v0 (exc ≠ none) p a r := by
    intro a ha
    obtain ⟨p, r, hp⟩ := List.append_of_mem ha
    exact ⟨p, r, C95_told h hp⟩
  refine ⟨fun hq => ⟨fun s hs => ?_, fun hs => ?_, ?_⟩, fun hq s hs => ?_⟩
  · obtain ⟨p, r, ht⟩ := hin hs
    rw [hq] at ht; cases ht
  · obtain ⟨p, r, ht⟩ := hin hs
    rw [hq] at ht; cases ht
  · -- stderr
    have key : ∀ (t : List (Eff σ J X V E)), (∀ p a r, t = p ++ a :: r →
        (∀ s, a = .say .warnings s → [.err s] <+: r) ∧ (∀ s, a = .err s → [.say .warnings s] <:+ p)) →
        t.filterMap (fun a => match a with | .err s => some s | _ => none) = said .warnings t := by
      suffices hs : ∀ (n : Nat) (pre t : List (Eff σ J X V E)), t.length ≤ n → (∀ s, ¬ [Eff.say Channel.warnings s] <:+ pre) →
          (∀ p a r, t = p ++ a :: r → (∀ s, a = .say .warnings s → [.err s] <+: r) ∧ (∀ s, a = .err s → [.say .warnings s] <:+ pre ++ p)) →
          t.filterMap (fun a => match a with | .err s => some s | _ => none) = said .warnings t by
        intro t ht
        refine hs t.length [] t (Nat.le_refl _) (fun s hs => ?_) ht
        have := hs.length_le
        simp at this
      intro n
      induction n with
      | zero =>
        intro pre t hn _ _
        rw [List.length_eq_zero_iff.mp (Nat.le_zero.mp hn)]; rfl
      | succ n ih =>
        intro pre t hn hpre ht
        cases t with
        | nil => rfl
        | cons a t =>
          have hstep (ha : ∀ s, a ≠ .say .warnings s) (ha' : ∀ s, a ≠ .err s) :
              (a :: t).filterMap (fun a => match a with | .err s => some s | _ => none) = said .warnings (a :: t) := by
            have h1 := ih (pre ++ [a]) t (Nat.le_of_succ_le_succ hn) (fun s hs => by
              obtain ⟨l, hl⟩ := hs
              have := List.append_inj' hl rfl
              exact ha s (List.cons.inj this.2).1.symm) (fun p b r hb => by
              have := ht (a :: p) b r (by rw [hb]; rfl)
              rwa [List.append_assoc])
            unfold said at h1 ⊢
            rw [List.filterMap_cons, List.filterMap_cons, h1]
            cases a with
            | err s => exact absurd rfl (ha' s)
            | say c s =>
              cases c with
              | warnings => exact absurd rfl (ha s)
              | results => rfl
            | _ => rfl
          cases a with
          | err s =>
            have := (ht [] _ _ rfl).2 s rfl
            rw [List.append_nil] at this
            exact absurd this (hpre s)
          | say c s =>
            cases c with
            | results => exact hstep nofun nofun
            | warnings =>
              obtain ⟨t', rfl⟩ := (ht [] _ _ rfl).1 s rfl
              have h1 := ih (pre ++ [.say .warnings s, .err s]) t' (by simp at hn; omega) (fun s' hs => by
                obtain ⟨l, hl⟩ := hs
                rw [show pre ++ [Eff.say Channel.warnings s, Eff.err s] = (pre ++ [.say .warnings s]) ++ [.err s] by simp] at hl
                have := List.append_inj' hl rfl
                cases this.2) (fun p b r hb => by
                have := ht (.say .warnings s :: .err s :: p) b r (by rw [hb]; rfl)
                rwa [List.append_assoc])
              show s :: _ = s :: _
              exact congrArg (s :: ·) h1
          | _ => exact hstep nofun nofun
    refine key _ (fun p a r hp => ?_)
    have ht := C95_told h hp
    constructor
    · rintro s rfl
      have := ht.1
      rw [hq] at this; exact this
    · rintro s rfl
      exact ht.2
  · obtain ⟨p, r, ht⟩ := hin hs
    rw [hq] at ht; cases ht.1

/-- C95: the terminal is left in the mode it was in, whenever the ringmaster isn't looking at it; unless it couldn't be put back, and then the run has ended with an exception. -/
theorem C95_terminal {d : Desk σ J X V E} {exc : Option (DExc E)} (h : Life C T quiet workers mg v0 d0 d exc) :
    d.terminal.mode = .clean ∨ exc = some .terminal := h.inv.mode

/-! ### Stopping a run -/

/-- Neither the command file nor the terminal. -/
def Indoors : Eff σ J X V E → Prop
  | .removeCommand => False
  | .tty _ => False
  | _ => True

theorem heard_indoors (l : List (Bool × Str)) : ∀ a ∈ (heard l : List (Eff σ J X V E)), Indoors a := by
  intro a ha
  obtain ⟨⟨b, s⟩, _, rfl⟩ := List.mem_map.mp ha
  cases b <;> trivial

theorem warned_indoors (q : Bool) (s : Str) : ∀ a ∈ (warned q s : List (Eff σ J X V E)), Indoors a := by
  intro a ha
  unfold warned alarm at ha
  simp only [List.mem_cons, List.not_mem_nil, or_false] at ha
  rcases ha with rfl | rfl | rfl
  · trivial
  · trivial
  · cases q <;> trivial

theorem screeny_indoors {l : List (Eff σ J X V E)} (h : ∀ a ∈ l, Screeny a) : ∀ a ∈ l, Indoors a := by
  intro a ha
  have := h a ha
  cases a <;> first | trivial | exact this.elim

/-- What `nextJob` leaves alone. -/
structure Quietly (d d' : Desk σ J X V E) : Prop where
  stopping : d'.rm.stopping = d.rm.stopping
  reason : d'.reason = d.reason
  adds : ∃ new, d'.trace = d.trace ++ new ∧ ∀ a ∈ new, Indoors a

theorem Quietly.trans {d d' d'' : Desk σ J X V E} (h : Quietly d d') (h' : Quietly d' d'') : Quietly d d'' := by
  obtain ⟨n1, h1, h2⟩ := h.adds
  obtain ⟨n2, h3, h4⟩ := h'.adds
  refine ⟨h'.stopping.trans h.stopping, h'.reason.trans h.reason, n1 ++ n2, by rw [h3, h1, List.append_assoc], fun a ha => ?_⟩
  rcases List.mem_append.mp ha with ha | ha
  · exact h2 a ha
  · exact h4 a ha

theorem newGame_quietly (d : Desk σ J X V E) (e : LEnv η) : Quietly d (d.newGame C T e).2 := by
  have hh {B : List (Eff σ J X V E)} (hB : ∀ a ∈ B, Indoors a) : ∀ a ∈ chat (T.gameLog e.call d.rm.comp) ++ B, Indoors a := by
    intro a ha
    rw [chat_heard] at ha
    rcases List.mem_append.mp ha with ha | ha
    · exact heard_indoors _ a ha
    · exact hB a ha
  unfold Desk.newGame
  split
  · exact ⟨rfl, rfl, _, rfl, hh (by simp [Indoors])⟩
  · exact ⟨rfl, rfl, _, rfl, hh (by simp [Indoors])⟩
  · split
    · exact ⟨rfl, rfl, _, rfl, hh (by simp [Indoors])⟩
    · exact ⟨rfl, rfl, _, rfl, hh (by simp [Indoors])⟩

theorem nextJob_quietly (d : Desk σ J X V E) (e : LEnv η) : Quietly d (d.nextJob C T e).2 := by
  unfold Desk.nextJob
  split
  · exact ⟨rfl, rfl, _, rfl, by simp [Indoors]⟩
  · exact newGame_quietly d e

theorem display_quietly {hh : η} {d d' : Desk σ J X V E} {r : Except (DExc E) Unit} (h : Displayed C T hh d r d') : Quietly d d' := by
  cases hq : d.screen.quiet with
  | true => rw [(h.isQuiet hq).2]; exact ⟨rfl, rfl, [], (List.append_nil _).symm, nofun⟩
  | false =>
    rcases h.cases hq with ⟨x, c, _, _, h1, h2⟩ | ⟨u, c, B, _, h1, h2, h3, _⟩
    · exact ⟨by rw [h1], h.reason, _, h2, by simp [Indoors]⟩
    · exact ⟨by rw [h1], h.reason, _, h2, screeny_indoors h3⟩

/-- What a call to get_job does about stopping. -/
structure Stops (e : LEnv η) (d : Desk σ J X V E) (r : Except (DExc E) (Option J)) (d' : Desk σ J X V E) : Prop where
  breaks : TtyBreaks e.tty d.terminal → r = .error .terminal ∧ d'.rm = d.rm ∧ d'.trace = d.trace
  halts : ¬ TtyBreaks e.tty d.terminal → (d'.rm.stopping = true ↔ StopTyped e.tty d.terminal ∨ StopCommanded e.cmd ∨ d.rm.maxGames = some 0)
  noJob : d'.rm.stopping = true → ∀ j, r ≠ .ok (some j)
  why : d'.rm.stopping = true → (StopTyped e.tty d.terminal → d'.reason = "stop instruction received from terminal".toList) ∧
    (¬ StopTyped e.tty d.terminal → StopCommanded e.cmd → d'.reason = "stop command received".toList) ∧
    (¬ StopTyped e.tty d.terminal → ¬ StopCommanded e.cmd → d'.reason = "max-games reached for this run".toList)
  adds : ∃ new, d'.trace = d.trace ++ new ∧
    (.removeCommand ∈ new ↔ ¬ TtyBreaks e.tty d.terminal ∧ ¬ StopTyped e.tty d.terminal ∧ StopCommanded e.cmd ∧ e.cmd.removeFails = none) ∧
    (∀ s, .tty s ∈ new ↔ ¬ TtyBreaks e.tty d.terminal ∧ StopTyped e.tty d.terminal ∧ d.screen.quiet = true ∧ s = "\rCtrl-X received; halting\n".toList)

theorem max_quietly {d d' : Desk σ J X V E} {e : LEnv η} {r : Except (DExc E) (Option J)} (h : d.nextUnlessMax C T e = (r, d')) (hns : d.rm.stopping = false) :
    (d.rm.maxGames ≠ some 0 ∧ Quietly d d') ∨ (d.rm.maxGames = some 0 ∧ r = .ok none ∧ d'.rm.stopping = true ∧
      d'.reason = "max-games reached for this run".toList ∧ ∃ new, d'.trace = d.trace ++ new ∧ ∀ a ∈ new, Indoors a) := by
  unfold Desk.nextUnlessMax at h
  cases hm : d.rm.maxGames with
  | none =>
    rw [hm] at h
    simp only at h
    refine .inl ⟨nofun, ?_⟩
    rw [show d' = (d.nextJob C T e).2 by rw [h]]
    exact nextJob_quietly d e
  | some k =>
    rw [hm] at h
    simp only at h
    split at h
    · rename_i hk
      obtain ⟨rfl, rfl⟩ := Prod.mk.inj h
      refine .inr ⟨by rw [hk], rfl, rfl, rfl, [.act .halted, .log ("halting competition: ".toList ++ "max-games reached for this run".toList)], ?_, by simp [Indoors]⟩
      show (d.trace ++ _) ++ _ = _
      rw [List.append_assoc]; rfl
    · rename_i hk
      refine .inl ⟨fun hs => hk (Option.some.inj hs), ?_⟩
      have := nextJob_quietly (C := C) (T := T) { d with rm := { d.rm with maxGames := some (k - 1) } } e
      rw [show d' = (Desk.nextJob C T e { d with rm := { d.rm with maxGames := some (k - 1) } }).2 by rw [h]]
      exact ⟨this.stopping, this.reason, this.adds⟩

theorem indoors_out {new : List (Eff σ J X V E)} (h : ∀ a ∈ new, Indoors a) : .removeCommand ∉ new ∧ ∀ s, .tty s ∉ new :=
  ⟨fun hm => h _ hm, fun _ hm => h _ hm⟩

theorem getJob1_stops {d d' : Desk σ J X V E} {e : LEnv η} {r : Except (DExc E) (Option J)} (h : d.getJob1 C T e = (r, d')) (hns : d.rm.stopping = false) :
    Stops e d r d' := by
  unfold Desk.getJob1 at h
  rw [if_neg (by rw [hns]; exact Bool.false_ne_true)] at h
  rcases ht : d.terminal.stopWasRequested e.tty with ⟨r1, t⟩
  obtain ⟨t1, t2, t3, t4, t5⟩ := tty_spec _ _ ht
  rw [ht] at h
  rcases r1 with ⟨⟩ | _ | _ <;> simp only at h
  · -- the terminal breaks
    have hb := t1.mp rfl
    obtain ⟨rfl, rfl⟩ := Prod.mk.inj h
    exact ⟨fun _ => ⟨rfl, rfl, rfl⟩, fun hn => absurd hb hn, nofun, (fun hs => by rw [hns] at hs; cases hs),
      [], (List.append_nil _).symm, ⟨nofun, fun hn => absurd hb hn.1⟩, fun s => ⟨nofun, fun hn => absurd hb hn.1⟩⟩
  · have hb : ¬ TtyBreaks e.tty d.terminal := fun hb => by cases t1.mpr hb
    have hst : ¬ StopTyped e.tty d.terminal := fun hs => by cases t2.mpr ⟨hs, hb⟩
    -- the command file says nothing
    have base : ∀ (d1 : Desk σ J X V E) (r : Except (DExc E) (Option J)) (d' : Desk σ J X V E), Quietly d d1 → d1.rm = d.rm → d1.nextUnlessMax C T e = (r, d') →
        ¬ StopCommanded e.cmd → Stops e d r d' := by
      intro d1 r d' hq hrm hn hc
      obtain ⟨n1, hn1, hn2⟩ := hq.adds
      rcases max_quietly hn (by rw [hrm]; exact hns) with ⟨hm, hq'⟩ | ⟨hm, rfl, hs, hre, n2, hn3, hn4⟩
      · obtain ⟨n, ha, hi⟩ := (hq.trans hq').adds
        have hs' : d'.rm.stopping = false := by rw [hq'.stopping, hq.stopping]; exact hns
        rw [hrm] at hm
        exact ⟨fun hx => absurd hx hb, fun _ => ⟨(fun hx => by rw [hs'] at hx; cases hx), by rintro (hx | hx | hx) <;> contradiction⟩,
          (fun hx => by rw [hs'] at hx; cases hx), (fun hx => by rw [hs'] at hx; cases hx), n, ha,
          ⟨fun hx => absurd hx (indoors_out hi).1, fun hx => absurd hx.2.2.1 hc⟩, fun s => ⟨fun hx => absurd hx ((indoors_out hi).2 s), fun hx => absurd hx.2.1 hst⟩⟩
      · rw [hrm] at hm
        have hi : ∀ a ∈ n1 ++ n2, Indoors a := fun a ha => (List.mem_append.mp ha).elim (hn2 a) (hn4 a)
        exact ⟨fun hx => absurd hx hb, fun _ => ⟨fun _ => .inr (.inr hm), fun _ => hs⟩, (fun _ j => nofun), (fun _ => ⟨fun hx => absurd hx hst, fun _ hx => absurd hx hc, fun _ _ => hre⟩),
          n1 ++ n2, by rw [hn3, hn1, List.append_assoc],
          ⟨fun hx => absurd hx (indoors_out hi).1, fun hx => absurd hx.2.2.1 hc⟩, fun s => ⟨fun hx => absurd hx ((indoors_out hi).2 s), fun hx => absurd hx.2.1 hst⟩⟩
    have hq0 : Quietly d { d with terminal := t } := ⟨rfl, rfl, [], (List.append_nil _).symm, nofun⟩
    unfold Desk.afterTerminal at h
    split at h
    · rename_i hf
      exact base _ r d' hq0 rfl h (fun hc => by unfold StopCommanded at hc; rw [hf] at hc; cases hc)
    · rename_i m hf
      have hsame := warn_same ({ d with terminal := t } : Desk σ J X V E) ("error reading .cmd file:\n".toList ++ m)
      refine base _ r d' ⟨by rw [hsame.rm], hsame.reason, _, warn_trace _ _, warned_indoors _ _⟩ hsame.rm h
        (fun hc => by unfold StopCommanded at hc; rw [hf] at hc; have := Option.some.inj hc; cases this)
    · rename_i command hf
      split at h
      · rename_i hcmd
        have hc : StopCommanded e.cmd := by unfold StopCommanded; rw [hf, hcmd]
        simp only at h
        split at h
        · rename_i hrf
          obtain ⟨rfl, rfl⟩ := Prod.mk.inj h
          refine ⟨fun hx => absurd hx hb, fun _ => ⟨fun _ => .inr (.inl hc), fun _ => rfl⟩, (fun _ j => nofun),
            (fun _ => ⟨fun hx => absurd hx hst, fun _ _ => rfl, fun _ hx => absurd hc hx⟩),
            [.act .halted, .log ("halting competition: ".toList ++ "stop command received".toList), .removeCommand], ?_, ?_, ?_⟩
          · show ((d.trace ++ _) ++ _) ++ _ = _
            rw [List.append_assoc, List.append_assoc]; rfl
          · exact ⟨fun _ => ⟨hb, hst, hc, hrf⟩, fun _ => by simp⟩
          · intro s
            exact ⟨fun hx => by simp at hx, fun hx => absurd hx.2.1 hst⟩
        · rename_i m hrf
          obtain ⟨rfl, rfl⟩ := Prod.mk.inj h
          have hsame := warn_same (Desk.halt (Desk.emit { d with terminal := t } [.act .halted]) "stop command received".toList d.rm.halt : Desk σ J X V E)
            ("error removing .cmd file:\n".toList ++ m)
          have htr := warn_trace (Desk.halt (Desk.emit { d with terminal := t } [.act .halted]) "stop command received".toList d.rm.halt : Desk σ J X V E)
            ("error removing .cmd file:\n".toList ++ m)
          have hi : ∀ a ∈ [Eff.act .halted, .log ("halting competition: ".toList ++ "stop command received".toList)] ++
              warned (σ := σ) (J := J) (X := X) (V := V) (E := E) d.screen.quiet ("error removing .cmd file:\n".toList ++ m), Indoors a := by
            intro a ha
            rcases List.mem_append.mp ha with ha | ha
            · simp only [List.mem_cons, List.not_mem_nil, or_false] at ha
              rcases ha with rfl | rfl <;> trivial
            · exact warned_indoors _ _ a ha
          refine ⟨fun hx => absurd hx hb, fun _ => ⟨fun _ => .inr (.inl hc), fun _ => by rw [hsame.rm]; rfl⟩, (fun _ j => nofun),
            (fun _ => ⟨fun hx => absurd hx hst, (fun _ _ => by rw [hsame.reason]; rfl), fun _ hx => absurd hc hx⟩),
            [Eff.act .halted, .log ("halting competition: ".toList ++ "stop command received".toList)] ++
              warned (σ := σ) (J := J) (X := X) (V := V) (E := E) d.screen.quiet ("error removing .cmd file:\n".toList ++ m), ?_, ?_, ?_⟩
          · rw [htr]
            show ((d.trace ++ _) ++ _) ++ _ = _
            rw [List.append_assoc, List.append_assoc]; rfl
          · exact ⟨fun hx => absurd hx (indoors_out hi).1, fun hx => by rw [hrf] at hx; cases hx.2.2.2⟩
          · intro s
            exact ⟨fun hx => absurd hx ((indoors_out hi).2 s), fun hx => absurd hx.2.1 hst⟩
      · rename_i hcmd
        exact base _ r d' hq0 rfl h (fun hc => by
          unfold StopCommanded at hc; rw [hf] at hc
          exact hcmd (Except.ok.inj (Option.some.inj hc)))
  · have hb : ¬ TtyBreaks e.tty d.terminal := fun hb => by cases t1.mpr hb
    have hst : StopTyped e.tty d.terminal := (t2.mp rfl).1
    obtain ⟨rfl, rfl⟩ := Prod.mk.inj h
    cases hq : d.screen.quiet with
    | true =>
      rw [if_pos (show (Desk.halt (Desk.emit { d with terminal := t } [.act .halted]) "stop instruction received from terminal".toList d.rm.halt : Desk σ J X V E).screen.quiet = true from hq)]
      refine ⟨fun hx => absurd hx hb, fun _ => ⟨fun _ => .inl hst, fun _ => rfl⟩, (fun _ j => nofun), (fun _ => ⟨fun _ => rfl, fun hx => absurd hst hx, fun hx => absurd hst hx⟩),
        [.act .halted, .log ("halting competition: ".toList ++ "stop instruction received from terminal".toList), .tty "\rCtrl-X received; halting\n".toList], ?_, ?_, ?_⟩
      · show ((d.trace ++ _) ++ _) ++ _ = _
        rw [List.append_assoc, List.append_assoc]; rfl
      · exact ⟨fun hx => by simp at hx, fun hx => absurd hst hx.2.1⟩
      · intro s
        simp only [List.mem_cons, reduceCtorEq, Eff.tty.injEq, List.not_mem_nil, or_false, false_or]
        exact ⟨fun hx => ⟨hb, hst, hq, hx⟩, fun hx => hx.2.2.2⟩
    | false =>
      rw [if_neg (show ¬ (Desk.halt (Desk.emit { d with terminal := t } [.act .halted]) "stop instruction received from terminal".toList d.rm.halt : Desk σ J X V E).screen.quiet = true from
        fun hx => by rw [show (Desk.halt (Desk.emit { d with terminal := t } [.act .halted]) "stop instruction received from terminal".toList d.rm.halt : Desk σ J X V E).screen.quiet = false from hq] at hx; cases hx)]
      refine ⟨fun hx => absurd hx hb, fun _ => ⟨fun _ => .inl hst, fun _ => rfl⟩, (fun _ j => nofun), (fun _ => ⟨fun _ => rfl, fun hx => absurd hst hx, fun hx => absurd hst hx⟩),
        [.act .halted, .log ("halting competition: ".toList ++ "stop instruction received from terminal".toList)], ?_, ?_, ?_⟩
      · show (d.trace ++ _) ++ _ = _
        rw [List.append_assoc]; rfl
      · exact ⟨fun hx => by simp at hx, fun hx => absurd hst hx.2.1⟩
      · intro s
        exact ⟨fun hx => by simp at hx, fun hx => by rw [hq] at hx; cases hx.2.2.1⟩

/-- C95: a run which isn't being stopped goes on just until someone has typed ^X on the terminal (and the ringmaster is in the foreground and can read it), the command file's contents
are "stop", or the number of games given with --max-games have been started; then get_job gives no more jobs. The terminal comes first: then the command file isn't even read (so it
stays there). The command file is removed when it has stopped the run; and in quiet mode ^X is acknowledged on the terminal. -/
theorem C95_stop {d d' : Desk σ J X V E} {e : LEnv η} {r : Except (DExc E) (Option J)} (h : d.getJob C T e = (r, d')) (hns : d.rm.stopping = false) :
    Stops e d r d' := by
  unfold Desk.getJob at h
  rcases hg : d.getJob1 C T e with ⟨r1, d1⟩
  have h1 := getJob1_stops hg hns
  rw [hg] at h
  cases r1 with
  | error x =>
    obtain ⟨rfl, rfl⟩ := Prod.mk.inj h
    exact h1
  | ok r1 =>
    simp only at h
    have hb : ¬ TtyBreaks e.tty d.terminal := fun hb => by cases (h1.breaks hb).1
    rcases hu : d1.updateDisplay C T e.screen e.report with ⟨r2, d2⟩
    have hq := display_quietly (display_spec _ _ _ hu)
    rw [hu] at h
    have hd2 : d' = d2 := by cases r2 <;> exact (Prod.mk.inj h).2.symm
    subst hd2
    obtain ⟨n1, ha, hi⟩ := hq.adds
    obtain ⟨n0, ha0, hr0, ht0⟩ := h1.adds
    refine ⟨fun hx => absurd hx hb, fun hx => by rw [hq.stopping]; exact h1.halts hx, ?_, fun hs => by rw [hq.reason]; exact h1.why (hq.stopping ▸ hs), n0 ++ n1,
      by rw [ha, ha0, List.append_assoc], ?_, ?_⟩
    · intro hs j
      have := h1.noJob (hq.stopping ▸ hs) j
      cases r2 with
      | error y => obtain ⟨rfl, _⟩ := Prod.mk.inj h; exact nofun
      | ok u =>
        obtain ⟨rfl, _⟩ := Prod.mk.inj h
        exact fun hx => this hx
    · rw [List.mem_append, ← hr0]
      exact ⟨fun hx => hx.resolve_right (indoors_out hi).1, fun hx => .inl hx⟩
    · intro s
      rw [List.mem_append, ← ht0 s]
      exact ⟨fun hx => hx.resolve_right ((indoors_out hi).2 s), fun hx => .inl hx⟩

/-- C95: once a run is being stopped, it stays so, for the same reason, and no more jobs are given. The command file is left alone: so a "stop" command which comes late
stops the next run at once. -/
theorem C95_stopped {d : Desk σ J X V E} (hs : d.rm.stopping = true) (e : LEnv η) (j : J) (x : X) :
    (∀ r d', d.getJob C T e = (r, d') → (∀ j, r ≠ .ok (some j)) ∧ d'.rm.stopping = true ∧ d'.reason = d.reason ∧
      ∃ new, d'.trace = d.trace ++ new ∧ .removeCommand ∉ new) ∧
    (d.processResponse C T e j x).2.rm.stopping = true ∧ (d.processResponse C T e j x).2.reason = d.reason ∧
    (d.processError C T e j).2.rm.stopping = true ∧ (d.processError C T e j).2.reason = d.reason := by
  refine ⟨?_, ?_⟩
  · intro r d' h
    unfold Desk.getJob Desk.getJob1 at h
    rw [if_pos hs] at h
    simp only at h
    rcases hu : d.updateDisplay C T e.screen e.report with ⟨r2, d2⟩
    have hq := display_quietly (display_spec _ _ _ hu)
    rw [hu] at h
    have hd2 : d' = d2 := by cases r2 <;> exact (Prod.mk.inj h).2.symm
    subst hd2
    obtain ⟨n, hn, hi⟩ := hq.adds
    refine ⟨?_, by rw [hq.stopping]; exact hs, hq.reason, n, hn, (indoors_out hi).1⟩
    cases r2 with
    | error y => obtain ⟨rfl, _⟩ := Prod.mk.inj h; exact fun _ => nofun
    | ok u => obtain ⟨rfl, _⟩ := Prod.mk.inj h; exact fun _ => nofun
  · have ha : (d.announced C T e j x).reason = d.reason := ((log_same d _).trans (passOn_same (d.log ("response from game ".toList ++ C.gameId j)) T x)).reason
    have hb : (d.alarmed C T e j).reason = d.reason := (warn_same d _).reason
    have h1 : (d.processResponse C T e j x).2.rm.stopping = true ∧ (d.processResponse C T e j x).2.reason = d.reason := by
      rw [processResponse_eq]
      split
      · exact ⟨hs, ha⟩
      · split
        · exact ⟨hs, ha⟩
        · split
          · exact ⟨by rw [(say_same _ _ _).rm]; exact hs, by rw [(say_same _ _ _).reason]; exact ha⟩
          · exact ⟨hs, ha⟩
    rw [processError_eq]
    refine ⟨h1.1, h1.2, ?_⟩
    split
    · exact ⟨hs, hb⟩
    · split
      · exact ⟨hs, hb⟩
      · rename_i rm hbk
        have hst : rm.stopping = true := (bookError_facts hbk).2.2.2.1.trans hs
        split
        · split
          · rename_i hx
            rw [hst, Bool.not_true, Bool.and_false] at hx; cases hx
          · exact ⟨hst, hb⟩
        · exact ⟨hst, hb⟩

/-- C95: ^X isn't lost while the ringmaster is in the background, or while it's busy: if it has been typed, then either the ringmaster stops at the next get_job, or an error stops it, or
it isn't able to read the terminal and ^X remains to be read at the next one. (If reading fails when some of what was typed has been read, ^X may be lost.) -/
theorem C95_ctrlx {d d' : Desk σ J X V E} {e : LEnv η} {r : Except (DExc E) (Option J)} (h : d.getJob C T e = (r, d')) (hns : d.rm.stopping = false)
    (hen : d.terminal.enabled = true) (hx : CtrlXTyped e.tty d.terminal) (hr : e.tty.readFails = none) :
    r = .error .terminal ∨ d'.rm.stopping = true ∨
      (Char.ofNat 24 ∈ d'.terminal.pending ∧ d'.terminal.enabled = true ∧ (e.tty.foreground = some false ∨ e.tty.setMode = .environmentError)) := by
  have hst := C95_stop h hns
  by_cases hb : TtyBreaks e.tty d.terminal
  · exact .inl (hst.breaks hb).1
  by_cases hs : StopTyped e.tty d.terminal
  · exact .inr (.inl ((hst.halts hb).mpr (.inl hs)))
  refine .inr (.inr ?_)
  have hfg : e.tty.foreground = some false ∨ e.tty.setMode = .environmentError := by
    rcases hf : e.tty.foreground with _ | _ | _
    · exact absurd ⟨hen, .inl hf⟩ hb
    · exact .inl rfl
    · rcases hm : e.tty.setMode with _ | _ | _
      · exact absurd ⟨hen, hf, hm, .inl hr, hx⟩ hs
      · exact .inr rfl
      · exact absurd ⟨hen, .inr ⟨hf, .inl hm⟩⟩ hb
  have hterm : d'.terminal = (d.terminal.stopWasRequested e.tty).2 := by
    unfold Desk.getJob at h
    have h1 : (d.getJob1 C T e).2.terminal = (d.terminal.stopWasRequested e.tty).2 := by
      unfold Desk.getJob1
      rw [if_neg (by rw [hns]; exact Bool.false_ne_true)]
      have hnext : ∀ (d : Desk σ J X V E), (d.nextUnlessMax C T e).2.terminal = d.terminal := by
        intro d
        have hj : ∀ (d : Desk σ J X V E), (d.nextJob C T e).2.terminal = d.terminal := by
          intro d
          unfold Desk.nextJob Desk.newGame
          repeat' split
          all_goals rfl
        unfold Desk.nextUnlessMax
        split
        · exact hj d
        · split
          · rfl
          · exact hj _
      rcases ht : d.terminal.stopWasRequested e.tty with ⟨r1, t⟩
      rcases r1 with _ | _ | _
      · rfl
      · simp only
        unfold Desk.afterTerminal
        split
        · exact hnext _
        · rw [hnext]; exact (warn_same _ _).terminal
        · split
          · simp only
            split
            · rfl
            · exact (warn_same _ _).terminal
          · exact hnext _
      · simp only
        split <;> rfl
    rcases hg : d.getJob1 C T e with ⟨r1, d1⟩
    rw [hg] at h h1
    cases r1 with
    | error x => rw [← (Prod.mk.inj h).2]; exact h1
    | ok r1 =>
      simp only at h
      rcases hu : d1.updateDisplay C T e.screen e.report with ⟨r2, d2⟩
      have hd := (display_spec _ _ _ hu).terminal
      rw [hu] at h
      have hd2 : d' = d2 := by cases r2 <;> exact (Prod.mk.inj h).2.symm
      subst hd2
      rw [hd]; exact h1
  rcases ht : d.terminal.stopWasRequested e.tty with ⟨r1, t⟩
  obtain ⟨_, _, t3, _, t5⟩ := tty_spec _ _ ht
  rw [ht] at hterm
  rw [hterm]
  refine ⟨?_, t3.trans hen, hfg⟩
  rcases t5 with t5 | ⟨t5, t6⟩
  · show _ ∈ t.pending
    rw [t5]; exact hx
  · rcases hfg with hfg | hfg
    · rw [hfg] at t5; cases t5
    · rw [hfg] at t6; cases t6

/-! ### Whole runs -/

theorem topOfLoop_life {m : Mp (Desk σ J X V E) J X (DExc E)} (hp : m.phase = .looping) (h : Life C T quiet workers mg v0 d0 m.src none) (e : LEnv η) :
    Life C T quiet workers mg v0 d0 (m.topOfLoop (source C T) e).src (endedWith (m.topOfLoop (source C T) e).phase) := by
  unfold Mp.topOfLoop
  split
  · rcases hg : m.src.getJob C T e with ⟨r, d'⟩
    have hl := Life.getJob e h hg
    rw [show (source C T).getJob e m.src = (r, d') from hg]
    rcases r with x | _ | j
    · exact hl
    · simp only
      unfold Mp.afterGet Mp.beginFinish
      split <;> exact hl
    · show Life C T quiet workers mg v0 d0 d' (endedWith m.phase)
      rw [hp]; exact hl
  · unfold Mp.afterGet Mp.beginFinish
    split <;> exact h

/-- C95: what's said of a `Life` is so throughout any run with the job manager, however the steps of the worker processes interleave; and for a run without worker processes. -/
theorem C95_manager {d : Desk σ J X V E} (h : Life C T quiet workers mg v0 d0 d none) (n : Nat) (steps : List (Step X (LEnv η))) (l : List (LEnv η × LEnv η × Option X)) :
    (let m := (Mp.start d n).run (source C T) steps
     Life C T quiet workers mg v0 d0 m.src (endedWith m.phase)) ∧
    (let m := (Ip.start d).run (source C T) l
     Life C T quiet workers mg v0 d0 m.src m.over.join) := by
  have key : ∀ (n : Nat) (steps : List (Step X (LEnv η))), Life C T quiet workers mg v0 d0 ((Mp.start d n).run (source C T) steps).src
      (endedWith ((Mp.start d n).run (source C T) steps).phase) := by
    intro n steps
    induction steps using List.reverseRecOn with
    | nil => exact h
    | append_singleton l s ih =>
      rw [run_snoc]
      generalize (Mp.start d n).run (source C T) l = m at ih
      cases s with
      | take k =>
        obtain ⟨_, h2, h3⟩ := map_take m k
        show Life C T quiet workers mg v0 d0 (m.take k).src (endedWith (m.take k).phase)
        rw [h2, h3]; exact ih
      | finishJob k x =>
        obtain ⟨_, h2, h3⟩ := map_finishJob m k x
        show Life C T quiet workers mg v0 d0 (m.finishJob k x).src (endedWith (m.finishJob k x).phase)
        rw [h2, h3]; exact ih
      | mgr e =>
        show Life C T quiet workers mg v0 d0 (m.mgr (source C T) e).src (endedWith (m.mgr (source C T) e).phase)
        unfold Mp.mgr
        cases hp : m.phase with
        | looping =>
          rw [hp] at ih
          exact topOfLoop_life hp ih e
        | returned x => rw [hp] at ih; simp only; rw [hp]; exact ih
        | finishing x =>
          rw [hp] at ih
          simp only
          split
          · exact ih
          · rw [hp]; exact ih
        | waiting =>
          rw [hp] at ih
          simp only
          unfold Mp.takeResponse
          rcases hq : m.respQ with _ | ⟨⟨j, _ | x⟩, rest⟩
          · simp only; rw [hp]; exact ih
          · simp only
            rcases hg : m.src.processError C T e j with ⟨r, d'⟩
            have hl := Life.error e j ih hg
            rw [show (source C T).processError e j m.src = (r, d') from hg]
            cases r <;> exact hl
          · simp only
            rcases hg : m.src.processResponse C T e j x with ⟨r, d'⟩
            have hl := Life.response e j x ih hg
            rw [show (source C T).processResponse e j x m.src = (r, d') from hg]
            cases r <;> exact hl
  refine ⟨key n steps, ?_⟩
  obtain ⟨steps, h1, _, h2, h3⟩ := C41_one_worker (source C T) d l
  have hk := key 1 steps
  simp only at h1 h2 h3 ⊢
  rw [h1] at hk
  cases ho : ((Ip.start d : Ip (Desk σ J X V E) J X (DExc E)).run (source C T) l).over with
  | none => rw [(h2 ho).1] at hk; exact hk
  | some exc => rw [h3 exc ho] at hk; exact hk

/-- C95: the start of a run is that of C88. -/
theorem C95_start {now : Str} {termios tty : Bool} {e : LEnv η} {c : σ} {mg' : Option Int} {d : Desk σ J X V E} {h : η}
    (hl : (d0 = none ∧ C.clean h = .ok c ∧ v0 = 0) ∨ ∃ saved, d0 = some (v0, saved) ∧ C.load h saved = .ok c)
    (hs : Desk.start C T now quiet workers (Terminal.initialise termios tty) mg e ⟨c, v0, [], [], [], mg', false, d0, []⟩ = (.ok (), d)) :
    Life C T quiet workers mg v0 d0 d none ∧ RM.start C mg ⟨false, 0, !quiet, true, h, e.report⟩ d0 = some d.rm := by
  refine ⟨Life.start now termios tty e c mg' hs, ?_⟩
  have hup : RM.updateDisplay C ⟨c, v0, [], [], [], mg, false, d0, []⟩ (!quiet) e.report = (.ok (), d.rm) := by
    unfold Desk.start at hs
    simp only at hs
    have key : ∀ d1 : Desk σ J X V E, d1.screen.quiet = quiet → Desk.updateDisplay C T e.screen e.report d1 = (.ok (), d) →
        RM.updateDisplay C d1.rm (!quiet) e.report = (.ok (), d.rm) := by
      intro d1 hq hu
      have hd := display_spec _ _ _ hu
      unfold RM.updateDisplay
      cases hq' : quiet with
      | true =>
        obtain ⟨_, rfl⟩ := hd.isQuiet (hq.trans hq')
        rfl
      | false =>
        rcases hd.cases (hq.trans hq') with ⟨x, c', _, hf, _⟩ | ⟨u, c', B, h3, h4, _⟩
        · cases hf
        · simp only [Bool.not_false, if_true]
          rw [h3, h4]
    cases workers with
    | none => exact key _ rfl hs
    | some n => exact key _ rfl hs
  unfold RM.start
  rcases hl with ⟨rfl, hc, rfl⟩ | ⟨saved, rfl, hc⟩
  · simp only [hc, Except.toOption, Option.map_some]
    rw [hup]
  · simp only [hc, Except.toOption, Option.map_some]
    rw [hup]

/-- C95: what C88 (and C89 and C90) say of runs is so of the runs here: at any moment, the ringmaster's state (its games, its status file, its competition...) is that of some run in the sense of C88;
with the same jobs in the same places, unless this one has ended because of the terminal or the screen. -/
theorem C95_same_run (d : Desk σ J X V E) (n : Nat) (steps : List (Step X (LEnv η))) :
    let m := (Mp.start d n).run (source C T) steps
    ∃ steps', let m' : Mp (RM σ J X V E) J X (RExc E) := (Mp.start d.rm n).run (Ring.source C) steps'
      m'.src = m.src.rm ∧ (endedWith m.phase ≠ some .terminal → endedWith m.phase ≠ some .screen →
        m'.log = m.log ∧ m'.jobQ = m.jobQ ∧ m'.workers = m.workers ∧ m'.respQ = m.respQ ∧ (m'.phase.fine ↔ m.phase.fine) ∧
        (m'.phase = .returned none ↔ m.phase = .returned none)) := by
  intro m
  obtain ⟨steps', h | ⟨ho, h⟩⟩ := sameRun (C := C) (T := T) (n := n) d steps
  · refine ⟨steps', ?_⟩
    simp only
    rw [h.2]
    refine ⟨rfl, fun _ _ => ⟨rfl, rfl, rfl, rfl, ?_, ?_⟩⟩
    · show (mapPhase m.phase).fine ↔ m.phase.fine
      rcases m.phase with _ | _ | ⟨_ | _⟩ | ⟨_ | _⟩ <;> simp [mapPhase, Phase.fine]
    · show mapPhase m.phase = _ ↔ m.phase = _
      rcases m.phase with _ | _ | ⟨_ | _⟩ | ⟨_ | _⟩ <;> simp [mapPhase]
  · refine ⟨steps', h, fun h1 h2 => ?_⟩
    exfalso
    change endedWith m.phase ≠ _ at h1
    have ho' : Odd m.phase := ho
    rcases hp : m.phase with _ | _ | ⟨_ | x⟩ | ⟨_ | x⟩ <;> rw [hp] at ho' h1 h2
    · exact ho'
    · exact ho'
    · exact ho'
    · rcases ho' with rfl | rfl
      · exact h1 rfl
      · exact h2 rfl
    · exact ho'
    · rcases ho' with rfl | rfl
      · exact h1 rfl
      · exact h2 rfl

end Gomill.Ring.Live
