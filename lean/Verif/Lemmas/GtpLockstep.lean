import Verif.Model.GtpPlayer
import Verif.Spec.GtpLockstep
import Verif.Props.GtpTold
import Verif.Props.GtpTranscript
/-
Lemmas for C64: controllers of engines made from Gtp_states.
-/
namespace Gomill.Gtp
open Py Go

variable {ρ τ : Type}

/-! ### One controller -/

/-- A controller whose engine's Gtp_state is `s`. -/
structure Eng (s : GS) (c : Ctl (Internal (GS × ρ))) : Prop where
  opened : c.closed = false
  aliases : c.aliases = []
  idle : c.chan.outstanding = []
  state : c.chan.engine.1 = s

/-- The effect of a command on the state. -/
def ran (P : StateEngine ρ) (s : GS) (w : ρ) (command : Str) (args : List Str) : GS := (P.run (s, w) command args).2.1

theorem do_eng (P : StateEngine ρ) {s : GS} {c : Ctl (Internal (GS × ρ))} (h : Eng s c) {command : Str} {args : List Str}
    (hc : isWellFormedWord command = true) (ha : ∀ a ∈ args, isWellFormedWord a = true) :
    (∃ e, (c.doCommand (internalChannel P.run) command args).1 = .error (.channel e) ∧ Eng s (c.doCommand (internalChannel P.run) command args).2) ∨
    (∃ w, Eng (P.run (s, w) command args).2.1 (c.doCommand (internalChannel P.run) command args).2 ∧
      ((P.run (s, w) command args).1.1 = true → ∃ msg, (c.doCommand (internalChannel P.run) command args).1 = .error (.badResponse msg (some (P.run (s, w) command args).1.2.1))) ∧
      ((P.run (s, w) command args).1.1 = false → (c.doCommand (internalChannel P.run) command args).1 = .ok (P.run (s, w) command args).1.2.1)) := by
  have ht : c.translate command = command := by unfold Ctl.translate; rw [h.aliases]; rfl
  have h1 : isWellFormedWord command = true ∧ args.all isWellFormedWord = true := ⟨hc, List.all_eq_true.2 ha⟩
  unfold Ctl.doCommand
  simp only [h.opened, ht, h1.1, h1.2, Bool.and_self, Bool.not_true, Bool.false_eq_true, if_false]
  obtain ⟨⟨⟨s0, w⟩, out, ended⟩, name, known, aliases, isFirst, errors, closed, bad⟩ := c
  obtain ⟨a1, a2, a3, a4⟩ := h
  simp only at a1 a2 a3 a4
  subst a1 a2 a3 a4
  cases ended with
  | true => exact .inl ⟨_, rfl, rfl, rfl, rfl, rfl⟩
  | false =>
    right
    refine ⟨w, ?_⟩
    simp only [internalChannel, Bool.false_eq_true, if_false, List.nil_append]
    cases hf : (P.run (s0, w) command args).1.1 with
    | true => exact ⟨⟨rfl, rfl, rfl, rfl⟩, fun _ => ⟨_, rfl⟩, fun hh => nomatch hh⟩
    | false => exact ⟨⟨rfl, rfl, rfl, rfl⟩, (fun hh => nomatch hh), fun _ => rfl⟩

theorem safe_eng (P : StateEngine ρ) {s : GS} {c : Ctl (Internal (GS × ρ))} (h : Eng s c) {command : Str} {args : List Str}
    (hc : isWellFormedWord command = true) (ha : ∀ a ∈ args, isWellFormedWord a = true) :
    ((c.safeDoCommand (internalChannel P.run) command args).1 = .ok none ∧ Eng s (c.safeDoCommand (internalChannel P.run) command args).2) ∨
    (∃ w, Eng (P.run (s, w) command args).2.1 (c.safeDoCommand (internalChannel P.run) command args).2 ∧
      ((P.run (s, w) command args).1.1 = true → ∃ msg, (c.safeDoCommand (internalChannel P.run) command args).1 = .error (.badResponse msg (some (P.run (s, w) command args).1.2.1))) ∧
      ((P.run (s, w) command args).1.1 = false → (c.safeDoCommand (internalChannel P.run) command args).1 = .ok (some (P.run (s, w) command args).1.2.1))) := by
  unfold Ctl.safeDoCommand
  split
  · exact .inl ⟨rfl, h⟩
  · have hd := do_eng P h hc ha
    cases hx : c.doCommand (internalChannel P.run) command args with
    | mk x c' =>
      rw [hx] at hd
      rcases hd with ⟨e, h1, h2⟩ | ⟨w, h1, h2, h3⟩
      · simp only at h1 h2
        subst h1
        exact .inl ⟨rfl, h2.opened, h2.aliases, h2.idle, h2.state⟩
      · right
        refine ⟨w, ?_⟩
        simp only at h1 h2 h3
        cases hf : (P.run (s, w) command args).1.1 with
        | true =>
          obtain ⟨msg, h4⟩ := h2 hf
          subst h4
          exact ⟨h1, fun _ => ⟨msg, rfl⟩, fun hh => nomatch hh⟩
        | false =>
          have h4 := h3 hf
          subst h4
          exact ⟨h1, (fun hh => nomatch hh), fun _ => rfl⟩

/-- A command which doesn't change the state. -/
def Harmless (P : StateEngine ρ) (command : Str) : Prop := ∀ s w args, (P.run (s, w) command args).2.1 = s

theorem explain_step (env : Env) (s : GS) (args : List Str) : (s.step env .explainLastMove args).1 = s := by
  show (s.explainLastMove args).1 = s
  unfold GS.explainLastMove
  split <;> rfl

theorem harmless_query (P : StateEngine ρ) : ∀ q ∈ queryNames, Harmless P q := by
  have key : ∀ q ∈ queryNames, stateCommands.lookup q = none ∨ stateCommands.lookup q = some .explainLastMove := by decide +kernel
  intro q hq s w args
  unfold StateEngine.run
  rcases key q hq with h | h
  · rw [h]
  · rw [h]; exact explain_step _ _ _

theorem perform_eng (P : StateEngine ρ) (safe : Bool) {s : GS} {c : Ctl (Internal (GS × ρ))} (h : Eng s c) {command : Str} {args : List Str}
    (hc : isWellFormedWord command = true) (ha : ∀ a ∈ args, isWellFormedWord a = true) (hh : Harmless P command) :
    Eng s (c.perform (internalChannel P.run) safe command args).2 := by
  unfold Ctl.perform
  cases safe with
  | true =>
    rw [if_pos rfl]
    rcases safe_eng P h hc ha with ⟨_, h2⟩ | ⟨w, h2, _⟩
    · exact h2
    · rw [hh] at h2; exact h2
  | false =>
    rw [if_neg (by decide)]
    have key : Eng s (c.doCommand (internalChannel P.run) command args).2 := by
      rcases do_eng P h hc ha with ⟨_, _, h2⟩ | ⟨w, h2, _⟩
      · exact h2
      · rw [hh] at h2; exact h2
    cases hx : c.doCommand (internalChannel P.run) command args with
    | mk x c' =>
      rw [hx] at key
      cases x <;> exact key

theorem known_eng (P : StateEngine ρ) (safe : Bool) {s : GS} {c : Ctl (Internal (GS × ρ))} (h : Eng s c) {command : Str}
    (hc : isWellFormedWord command = true) : Eng s (c.knownCommand (internalChannel P.run) safe command).2 := by
  unfold Ctl.knownCommand
  cases c.known.lookup command with
  | some r => exact h
  | none =>
    simp only
    have ht : c.translate command = command := by unfold Ctl.translate; rw [h.aliases]; rfl
    have key := perform_eng P safe h (command := "known_command".toList) (args := [c.translate command]) (by decide +kernel)
      (by rw [ht]; simpa using hc) (harmless_query P _ (by decide +kernel))
    cases hx : c.perform (internalChannel P.run) safe "known_command".toList [c.translate command] with
    | mk x c' =>
      rw [hx] at key
      cases x with
      | ok r => exact ⟨key.opened, key.aliases, key.idle, key.state⟩
      | error e => cases e <;> exact ⟨key.opened, key.aliases, key.idle, key.state⟩

/-! ### The game controller -/

/-- A game controller whose engines' Gtp_states are `G`. -/
structure GCEng (o : Bool) (G : Colour → GS) (gc : GC (Internal (GS × ρ))) : Prop where
  mode : gc.cautious = o
  ctl : ∀ c, Eng (G c) (gc.ctl c)

theorem GCEng.set {o : Bool} {G : Colour → GS} {gc : GC (Internal (GS × ρ))} (h : GCEng o G gc) {c : Colour} {x : Ctl (Internal (GS × ρ))} {s : GS}
    (hx : Eng s x) : GCEng o (upd G c s) (gc.set c x) := by
  refine ⟨h.mode, fun d => ?_⟩
  unfold upd GC.set
  simp only
  by_cases hd : d = c
  · subst hd; simp only [if_true]; exact hx
  · simp only [if_neg hd]; exact h.ctl d

theorem GCEng.setSame {o : Bool} {G : Colour → GS} {gc : GC (Internal (GS × ρ))} (h : GCEng o G gc) {c : Colour} {x : Ctl (Internal (GS × ρ))}
    (hx : Eng (G c) x) : GCEng o G (gc.set c x) := by
  have := h.set (c := c) hx
  rw [upd_same] at this
  exact this

/-- The channels. -/
def engines (P : Colour → StateEngine ρ) : Colour → Channel (Internal (GS × ρ)) := fun c => internalChannel (P c).run

variable {P : Colour → StateEngine ρ} {o : Bool} {G : Colour → GS} {gc : GC (Internal (GS × ρ))}

theorem send_eng (h : GCEng o G gc) (c : Colour) {command : Str} {args : List Str}
    (hc : isWellFormedWord command = true) (ha : ∀ a ∈ args, isWellFormedWord a = true) :
    (∃ e, (gc.send (engines P) c command args).1 = .error e ∧ GCEng o G (gc.send (engines P) c command args).2 ∧
      ((∃ x, e = .channel x) ∨ o = true ∧ ∃ m, e = .badResponse m none)) ∨
    (∃ w, GCEng o (upd G c ((P c).run (G c, w) command args).2.1) (gc.send (engines P) c command args).2 ∧
      (((P c).run (G c, w) command args).1.1 = true →
        ∃ msg, (gc.send (engines P) c command args).1 = .error (.badResponse msg (some ((P c).run (G c, w) command args).1.2.1))) ∧
      (((P c).run (G c, w) command args).1.1 = false → (gc.send (engines P) c command args).1 = .ok ((P c).run (G c, w) command args).1.2.1)) := by
  unfold GC.send
  rw [h.mode]
  cases o with
  | true =>
    rw [if_pos rfl]
    have hs := safe_eng (P c) (h.ctl c) hc ha
    unfold engines
    cases hx : (gc.ctl c).safeDoCommand (internalChannel (P c).run) command args with
    | mk x c' =>
      rw [hx] at hs
      rcases hs with ⟨h1, h2⟩ | ⟨w, h1, h2, h3⟩
      · simp only at h1 h2
        subst h1
        exact .inl ⟨_, rfl, h.setSame h2, .inr ⟨rfl, _, rfl⟩⟩
      · right
        refine ⟨w, ?_⟩
        simp only at h1 h2 h3
        cases hf : ((P c).run (G c, w) command args).1.1 with
        | true =>
          obtain ⟨msg, h4⟩ := h2 hf
          subst h4
          exact ⟨h.set h1, fun _ => ⟨msg, rfl⟩, fun hh => nomatch hh⟩
        | false =>
          have h4 := h3 hf
          subst h4
          exact ⟨h.set h1, (fun hh => nomatch hh), fun _ => rfl⟩
  | false =>
    rw [if_neg (by decide)]
    have hs := do_eng (P c) (h.ctl c) hc ha
    unfold engines
    cases hx : (gc.ctl c).doCommand (internalChannel (P c).run) command args with
    | mk x c' =>
      rw [hx] at hs
      rcases hs with ⟨e, h1, h2⟩ | ⟨w, h1, h2, h3⟩
      · simp only at h1 h2
        subst h1
        exact .inl ⟨_, rfl, h.setSame h2, .inl ⟨_, rfl⟩⟩
      · right
        refine ⟨w, ?_⟩
        simp only at h1 h2 h3
        cases hf : ((P c).run (G c, w) command args).1.1 with
        | true =>
          obtain ⟨msg, h4⟩ := h2 hf
          subst h4
          exact ⟨h.set h1, fun _ => ⟨msg, rfl⟩, fun hh => nomatch hh⟩
        | false =>
          have h4 := h3 hf
          subst h4
          exact ⟨h.set h1, (fun hh => nomatch hh), fun _ => rfl⟩

theorem gcKnown_eng (h : GCEng o G gc) (c : Colour) {command : Str} (hc : isWellFormedWord command = true) :
    GCEng o G (gc.knownCommand (engines P) c command).2 := by
  unfold GC.knownCommand
  exact h.setSame (known_eng (P c) gc.cautious (h.ctl c) hc)

theorem maybe_eng (h : GCEng o G gc) (c : Colour) {command : Str} (hc : command ∈ queryNames) :
    GCEng o G (gc.maybeSend (engines P) c command []).2 := by
  unfold GC.maybeSend
  have hk := gcKnown_eng (P := P) h c (queryName_word command hc)
  cases hx : gc.knownCommand (engines P) c command with
  | mk x gc1 =>
    rw [hx] at hk
    cases x with
    | error e => exact hk
    | ok b =>
      cases b with
      | false => exact hk
      | true =>
        simp only at hk ⊢
        have hp := perform_eng (P c) gc1.cautious (hk.ctl c) (queryName_word command hc) (args := []) (fun _ h => nomatch h) (harmless_query (P c) _ hc)
        unfold engines
        cases hy : (gc1.ctl c).perform (internalChannel (P c).run) gc1.cautious command [] with
        | mk y c' =>
          rw [hy] at hp
          cases y with
          | ok r => exact hk.setSame hp
          | error e => cases e <;> exact hk.setSame hp

theorem cpuTime_eng (float : Str → Option Rat) (h : GCEng o G gc) (c : Colour) : GCEng o G (gc.cpuTime (engines P) float c).2 := by
  unfold GC.cpuTime
  have hk := gcKnown_eng (P := P) h c (command := "gomill-cpu_time".toList) (by decide +kernel)
  cases hx : gc.knownCommand (engines P) c "gomill-cpu_time".toList with
  | mk x gc1 =>
    rw [hx] at hk
    cases x with
    | error e => exact hk
    | ok b =>
      cases b with
      | false => exact hk
      | true =>
        simp only at hk ⊢
        have hm := maybe_eng (P := P) hk c (command := "gomill-cpu_time".toList) (by decide +kernel)
        cases hy : gc1.maybeSend (engines P) c "gomill-cpu_time".toList [] with
        | mk y gc2 =>
          rw [hy] at hm
          cases y with
          | error e => cases e <;> exact hm
          | ok r =>
            cases r with
            | none => exact hm
            | some s =>
              simp only
              cases float s <;> exact hm

theorem cpuTimes_eng (float : Str → Option Rat) (h : GCEng o G gc) : GCEng o G (gc.cpuTimes (engines P) float).2 := by
  unfold GC.cpuTimes
  have h1 := cpuTime_eng (P := P) float h .b
  cases hx : gc.cpuTime (engines P) float .b with
  | mk x gc1 =>
    rw [hx] at h1
    cases x with
    | error e => exact h1
    | ok r =>
      simp only at h1 ⊢
      have h2 := cpuTime_eng (P := P) float h1 .w
      cases hy : gc1.cpuTime (engines P) float .w with
      | mk y gc2 =>
        rw [hy] at h2
        cases y <;> exact h2

theorem askScorers_eng : ∀ (l : List Colour) {gc : GC (Internal (GS × ρ))}, GCEng o G gc → GCEng o G (askScorers (engines P) l gc).2 := by
  intro l
  induction l with
  | nil => intro gc h; exact h
  | cons c l ih =>
    intro gc h
    unfold askScorers
    have h1 := maybe_eng (P := P) h c (command := "final_score".toList) (by decide +kernel)
    cases hx : gc.maybeSend (engines P) c "final_score".toList [] with
    | mk x gc1 =>
      rw [hx] at h1
      cases x with
      | error e => exact h1
      | ok r =>
        simp only at h1 ⊢
        have h2 := ih h1
        cases hy : askScorers (engines P) l gc1 with
        | mk y gc2 =>
          rw [hy] at h2
          cases y <;> exact h2

end Gomill.Gtp
