import Verif.Lemmas.GameTrack
import Verif.Lemmas.GtpBackend
import Verif.Spec.GtpTranscript
/-
Lemmas for C63: the commands sent to the engines of a Gtp_game.
-/
namespace Gomill.Gtp
open Py Go

variable {σ τ : Type}

/-! ### One controller -/

def exName : Str := "gomill-genmove_ex".toList

/-- The conversation with an engine so far: the game commands sent, and what is known about gomill-genmove_ex. -/
structure CtlAt (al : List (Str × Str)) (S : List GtpCommand) (kn : Option Bool) (c : Ctl (σ × List Event)) : Prop where
  opened : c.closed = false
  aliases : c.aliases = al
  sent : gameCommands al c.chan.2 = S
  known : c.known.lookup exName = kn

theorem sentIn_append (a b : List Event) : sentIn (a ++ b) = sentIn a ++ sentIn b := by
  unfold sentIn; exact List.filterMap_append

theorem gameCommands_append (al : List (Str × Str)) (a b : List Event) : gameCommands al (a ++ b) = gameCommands al a ++ gameCommands al b := by
  unfold gameCommands
  rw [sentIn_append, List.filter_append]

theorem doCommand_sent (C : Channel σ) (c : Ctl (σ × List Event)) (command : Str) (args : List Str) (ho : c.closed = false)
    (hw : WordsOK c command args) : (c.doCommand (logged C) command args).2.closed = false ∧
      (c.doCommand (logged C) command args).2.aliases = c.aliases ∧ (c.doCommand (logged C) command args).2.known = c.known ∧
      ∃ new, (c.doCommand (logged C) command args).2.chan.2 = c.chan.2 ++ new ∧ sentIn new = [(aliasOf c.aliases command, args)] := by
  have h1 : isWellFormedWord (c.translate command) = true ∧ args.all isWellFormedWord = true := ⟨hw.1, List.all_eq_true.2 hw.2⟩
  have ht : aliasOf c.aliases command = c.translate command := rfl
  unfold Ctl.doCommand
  simp only [ho, h1.1, h1.2, Bool.and_self, Bool.not_true, Bool.false_eq_true, if_false, ht]
  unfold logged
  simp only
  cases hs : C.send (c.translate command) args c.chan.1 with
  | mk x s1 =>
    cases x with
    | error e => exact ⟨rfl, rfl, rfl, [.sent (c.translate command) args false], rfl, rfl⟩
    | ok u =>
      simp only
      cases hr : C.recv s1 with
      | mk y s2 =>
        cases y with
        | error e => exact ⟨rfl, rfl, rfl, [.sent (c.translate command) args true, .received false], by simp, rfl⟩
        | ok z =>
          obtain ⟨f, t⟩ := z
          cases f with
          | true => exact ⟨rfl, rfl, rfl, [.sent (c.translate command) args true, .received true], by simp, rfl⟩
          | false => exact ⟨rfl, rfl, rfl, [.sent (c.translate command) args true, .received true], by simp, rfl⟩

theorem safeDoCommand_sent (C : Channel σ) (c : Ctl (σ × List Event)) (command : Str) (args : List Str) (ho : c.closed = false)
    (hw : WordsOK c command args) : (c.safeDoCommand (logged C) command args = (.ok none, c)) ∨
    ((c.safeDoCommand (logged C) command args).2.closed = false ∧
      (c.safeDoCommand (logged C) command args).2.aliases = c.aliases ∧ (c.safeDoCommand (logged C) command args).2.known = c.known ∧
      ∃ new, (c.safeDoCommand (logged C) command args).2.chan.2 = c.chan.2 ++ new ∧ sentIn new = [(aliasOf c.aliases command, args)]) := by
  have h := doCommand_sent C c command args ho hw
  unfold Ctl.safeDoCommand
  split
  · exact .inl rfl
  · right
    cases hx : c.doCommand (logged C) command args with
    | mk x c' =>
      rw [hx] at h
      cases x with
      | ok r => exact h
      | error e => cases e <;> exact h

/-- A game command, really sent. -/
def Sent (al : List (Str × Str)) (S : List GtpCommand) (kn : Option Bool) (command : Str) (args : List Str) (c : Ctl (σ × List Event)) : Prop :=
  CtlAt al (S ++ [(aliasOf al command, args)]) kn c

theorem CtlAt.step {al : List (Str × Str)} {S : List GtpCommand} {kn : Option Bool} {c c' : Ctl (σ × List Event)} (h : CtlAt al S kn c)
    (h1 : c'.closed = false) (h2 : c'.aliases = c.aliases) (h3 : c'.known.lookup exName = kn) {new : List Event} (h4 : c'.chan.2 = c.chan.2 ++ new)
    {S' : List GtpCommand} (h5 : gameCommands al new = S') : CtlAt al (S ++ S') kn c' :=
  ⟨h1, h2.trans h.aliases, by rw [h4, gameCommands_append, h.sent, h5], h3⟩

theorem game_one {al : List (Str × Str)} (hal : AliasesOK al) {command : Str} (hc : command ∈ gameNames) {args : List Str} {new : List Event}
    (h : sentIn new = [(aliasOf al command, args)]) : gameCommands al new = [(aliasOf al command, args)] := by
  unfold gameCommands
  rw [h, List.filter_cons, if_pos, List.filter_nil]
  simp only [Bool.not_eq_true', List.contains_eq_mem, decide_eq_false_iff_not, List.mem_map, not_exists, not_and]
  intro q hq he
  exact hal command hc q hq he.symm

theorem query_one {al : List (Str × Str)} {command : Str} (hc : command ∈ queryNames) {args : List Str} {new : List Event}
    (h : sentIn new = [(aliasOf al command, args)]) : gameCommands al new = [] := by
  unfold gameCommands
  rw [h, List.filter_cons, if_neg, List.filter_nil]
  simp only [Bool.not_eq_true', Bool.not_eq_false, List.contains_eq_mem, decide_eq_true_eq, List.mem_map]
  exact ⟨command, hc, rfl⟩

theorem words_ok {al : List (Str × Str)} (hw : ∀ kv ∈ al, isWellFormedWord kv.2 = true) {c : Ctl (σ × List Event)} (h : c.aliases = al) {command : Str} {args : List Str}
    (h1 : isWellFormedWord command = true) (h2 : ∀ a ∈ args, isWellFormedWord a = true) : WordsOK c command args :=
  ⟨word_translate (by rw [h]; exact hw) h1, h2⟩

theorem gameName_word : ∀ command ∈ gameNames, isWellFormedWord command = true := by decide +kernel

theorem queryName_word : ∀ command ∈ queryNames, isWellFormedWord command = true := by decide +kernel

/-- Sending a query: the game commands are the same. -/
theorem perform_query (C : Channel σ) (safe : Bool) {al : List (Str × Str)} (hw : ∀ kv ∈ al, isWellFormedWord kv.2 = true) {S : List GtpCommand} {kn : Option Bool}
    {c : Ctl (σ × List Event)} (h : CtlAt al S kn c) {command : Str} {args : List Str} (hc : command ∈ queryNames) (ha : ∀ a ∈ args, isWellFormedWord a = true) :
    CtlAt al S kn (c.perform (logged C) safe command args).2 ∧ (c.perform (logged C) safe command args).2.known = c.known := by
  have hok := words_ok hw h.aliases (queryName_word command hc) ha
  have fin : ∀ c' : Ctl (σ × List Event), (c'.closed = false ∧ c'.aliases = c.aliases ∧ c'.known = c.known ∧
      ∃ new, c'.chan.2 = c.chan.2 ++ new ∧ sentIn new = [(aliasOf c.aliases command, args)]) → CtlAt al S kn c' ∧ c'.known = c.known := by
    rintro c' ⟨h1, h2, h3, new, h4, h5⟩
    rw [h.aliases] at h5
    have := h.step h1 h2 (by rw [h3]; exact h.known) h4 (query_one hc h5)
    rw [List.append_nil] at this
    exact ⟨this, h3⟩
  unfold Ctl.perform
  cases safe with
  | true =>
    rw [if_pos rfl]
    rcases safeDoCommand_sent C c command args h.opened hok with hs | hs
    · rw [hs]; exact ⟨h, rfl⟩
    · exact fin _ hs
  | false =>
    rw [if_neg (by decide)]
    have hs := doCommand_sent C c command args h.opened hok
    cases hx : c.doCommand (logged C) command args with
    | mk x c' =>
      rw [hx] at hs
      cases x with
      | ok r => exact fin _ hs
      | error e => exact fin _ hs

theorem lookup_cons_ne {β : Type} {k k' : Str} {v : β} {l : List (Str × β)} (h : k ≠ k') : ((k', v) :: l).lookup k = l.lookup k := by
  have : (k == k') = false := by simpa using h
  rw [List.lookup_cons, this]

theorem lookup_cons_eq {β : Type} {k : Str} {v : β} {l : List (Str × β)} : ((k, v) :: l).lookup k = some v := by
  rw [List.lookup_cons]; simp

/-- known_command: the game commands are the same; the answer is remembered. -/
theorem knownCommand_at (C : Channel σ) (safe : Bool) {al : List (Str × Str)} (hw : ∀ kv ∈ al, isWellFormedWord kv.2 = true) {S : List GtpCommand} {kn : Option Bool}
    {c : Ctl (σ × List Event)} (h : CtlAt al S kn c) {command : Str} (hc : isWellFormedWord command = true) :
    (CtlAt al S kn (c.knownCommand (logged C) safe command).2 ∧ (command = exName → (∃ b, kn = some b ∧ (c.knownCommand (logged C) safe command).1 = .ok b) ∨
        ∃ e, (c.knownCommand (logged C) safe command).1 = .error e)) ∨
      (command = exName ∧ kn = none ∧ ∃ b, (c.knownCommand (logged C) safe command).1 = .ok b ∧ CtlAt al S (some b) (c.knownCommand (logged C) safe command).2) := by
  unfold Ctl.knownCommand
  cases hl : c.known.lookup command with
  | some r => exact .inl ⟨h, fun he => .inl ⟨r, by rw [← h.known, ← he]; exact hl, rfl⟩⟩
  | none =>
    simp only
    obtain ⟨h1, h2⟩ := perform_query C safe hw h (command := "known_command".toList) (args := [c.translate command]) (by decide +kernel)
      (by simp only [List.mem_singleton, forall_eq]; exact word_translate (by rw [h.aliases]; exact hw) hc)
    have upd : ∀ (c' : Ctl (σ × List Event)) (b : Bool), CtlAt al S kn c' → c'.known = c.known →
        (CtlAt al S kn ({ c' with known := (command, b) :: c'.known } : Ctl (σ × List Event)) ∧ command ≠ exName) ∨
        (command = exName ∧ kn = none ∧ CtlAt al S (some b) ({ c' with known := (command, b) :: c'.known } : Ctl (σ × List Event))) := by
      intro c' b hc' hk
      by_cases he : command = exName
      · right
        refine ⟨he, ?_, hc'.opened, hc'.aliases, hc'.sent, ?_⟩
        · rw [← h.known, ← he]; exact hl
        · show ((command, b) :: c'.known).lookup exName = some b
          rw [he]; exact lookup_cons_eq
      · left
        exact ⟨⟨hc'.opened, hc'.aliases, hc'.sent, (lookup_cons_ne (fun h => he h.symm)).trans hc'.known⟩, he⟩
    cases hx : c.perform (logged C) safe "known_command".toList [c.translate command] with
    | mk x c' =>
      rw [hx] at h1 h2
      cases x with
      | ok r =>
        rcases upd c' (decide (r = some "true".toList)) h1 h2 with ⟨hu, hu'⟩ | ⟨a1, a2, a3⟩
        · exact .inl ⟨hu, fun he => absurd he hu'⟩
        · exact .inr ⟨a1, a2, _, rfl, a3⟩
      | error e =>
        cases e with
        | badResponse m g =>
          rcases upd c' false h1 h2 with ⟨hu, hu'⟩ | ⟨a1, a2, a3⟩
          · exact .inl ⟨hu, fun he => absurd he hu'⟩
          · exact .inr ⟨a1, a2, _, rfl, a3⟩
        | channel e => exact .inl ⟨h1, fun _ => .inr ⟨_, rfl⟩⟩
        | value => exact .inl ⟨h1, fun _ => .inr ⟨_, rfl⟩⟩
        | channelIsClosed => exact .inl ⟨h1, fun _ => .inr ⟨_, rfl⟩⟩

/-! ### The game controller -/

/-- The conversations so far. -/
structure GCAt (o : Bool) (al : Colour → List (Str × Str)) (S : Colour → List GtpCommand) (kn : Colour → Option Bool) (gc : GC (σ × List Event)) : Prop where
  mode : gc.cautious = o
  ctl : ∀ c, CtlAt (al c) (S c) (kn c) (gc.ctl c)

variable {o : Bool} {al : Colour → List (Str × Str)} {S : Colour → List GtpCommand} {kn : Colour → Option Bool} {gc : GC (σ × List Event)}

/-- A change at one colour. -/
def upd {α : Type} (f : Colour → α) (c : Colour) (x : α) : Colour → α := fun d => if d = c then x else f d

theorem GCAt.set (h : GCAt o al S kn gc) {c : Colour} {x : Ctl (σ × List Event)} {s : List GtpCommand} {k : Option Bool} (hx : CtlAt (al c) s k x) :
    GCAt o al (upd S c s) (upd kn c k) (gc.set c x) := by
  refine ⟨h.mode, fun d => ?_⟩
  unfold upd GC.set
  simp only
  by_cases hd : d = c
  · subst hd; simp only [if_true]; exact hx
  · simp only [if_neg hd]; exact h.ctl d

theorem upd_same {α : Type} (f : Colour → α) (c : Colour) : upd f c (f c) = f := by
  funext d
  unfold upd
  split
  · rename_i h; rw [h]
  · rfl

theorem GCAt.setSame (h : GCAt o al S kn gc) {c : Colour} {x : Ctl (σ × List Event)} (hx : CtlAt (al c) (S c) (kn c) x) :
    GCAt o al S kn (gc.set c x) := by
  have := h.set hx
  rw [upd_same, upd_same] at this
  exact this

/-- The aliases are usable. -/
structure AlOK (al : Colour → List (Str × Str)) : Prop where
  words : ∀ c, ∀ kv ∈ al c, isWellFormedWord kv.2 = true
  apart : ∀ c, AliasesOK (al c)

/-- Sending a game command: it is sent, except in cautious mode, if there was an error before. -/
theorem send_at (C : Colour → Channel σ) (hal : AlOK al) (h : GCAt o al S kn gc) (c : Colour) {command : Str} {args : List Str} (hc : command ∈ gameNames)
    (ha : ∀ a ∈ args, isWellFormedWord a = true) :
    GCAt o al (upd S c (S c ++ [(aliasOf (al c) command, args)])) kn (gc.send (fun c => logged (C c)) c command args).2 ∨
      (o = true ∧ (∃ m, (gc.send (fun c => logged (C c)) c command args).1 = .error (.badResponse m none)) ∧
        GCAt o al S kn (gc.send (fun c => logged (C c)) c command args).2) := by
  have hok := words_ok (hal.words c) (h.ctl c).aliases (gameName_word command hc) ha
  have fin : ∀ c' : Ctl (σ × List Event), (c'.closed = false ∧ c'.aliases = (gc.ctl c).aliases ∧ c'.known = (gc.ctl c).known ∧
      ∃ new, c'.chan.2 = (gc.ctl c).chan.2 ++ new ∧ sentIn new = [(aliasOf (gc.ctl c).aliases command, args)]) →
      GCAt o al (upd S c (S c ++ [(aliasOf (al c) command, args)])) kn (gc.set c c') := by
    rintro c' ⟨h1, h2, h3, new, h4, h5⟩
    rw [(h.ctl c).aliases] at h5
    have := h.set ((h.ctl c).step h1 h2 (by rw [h3]; exact (h.ctl c).known) h4 (game_one (hal.apart c) hc h5))
    rw [upd_same] at this
    exact this
  unfold GC.send
  rw [h.mode]
  cases o with
  | true =>
    rw [if_pos rfl]
    rcases safeDoCommand_sent (C c) (gc.ctl c) command args (h.ctl c).opened hok with hs | hs
    · rw [hs]
      exact .inr ⟨rfl, ⟨_, rfl⟩, h.setSame (h.ctl c)⟩
    · left
      cases hx : (gc.ctl c).safeDoCommand (logged (C c)) command args with
      | mk x c' =>
        rw [hx] at hs
        cases x with
        | error e => exact fin _ hs
        | ok r => cases r <;> exact fin _ hs
  | false =>
    rw [if_neg (by decide)]
    left
    have hs := doCommand_sent (C c) (gc.ctl c) command args (h.ctl c).opened hok
    cases hx : (gc.ctl c).doCommand (logged (C c)) command args with
    | mk x c' =>
      rw [hx] at hs
      cases x with
      | error e => exact fin _ hs
      | ok r => exact fin _ hs

theorem known_at (C : Colour → Channel σ) (hal : AlOK al) (h : GCAt o al S kn gc) (c : Colour) {command : Str} (hc : isWellFormedWord command = true) :
    (GCAt o al S kn (gc.knownCommand (fun c => logged (C c)) c command).2 ∧ (command = exName →
        (∃ b, kn c = some b ∧ (gc.knownCommand (fun c => logged (C c)) c command).1 = .ok b) ∨
        ∃ e, (gc.knownCommand (fun c => logged (C c)) c command).1 = .error e)) ∨
      (command = exName ∧ kn c = none ∧ ∃ b, (gc.knownCommand (fun c => logged (C c)) c command).1 = .ok b ∧
        GCAt o al S (upd kn c (some b)) (gc.knownCommand (fun c => logged (C c)) c command).2) := by
  unfold GC.knownCommand
  rcases knownCommand_at (C c) gc.cautious (hal.words c) (h.ctl c) hc with ⟨hk, hk'⟩ | ⟨h1, h2, b, h3, h4⟩
  · exact .inl ⟨h.setSame hk, hk'⟩
  · have := h.set h4
    rw [upd_same] at this
    exact .inr ⟨h1, h2, b, h3, this⟩

/-- known_command for gomill-genmove_ex: the answer is remembered, and is always the same. -/
theorem known_ex_at (C : Colour → Channel σ) (hal : AlOK al) (h : GCAt o al S kn gc) (c : Colour) :
    (∃ b, (gc.knownCommand (fun c => logged (C c)) c exName).1 = .ok b ∧ (kn c = none ∨ kn c = some b) ∧
      GCAt o al S (upd kn c (some b)) (gc.knownCommand (fun c => logged (C c)) c exName).2) ∨
    (∃ e, (gc.knownCommand (fun c => logged (C c)) c exName).1 = .error e ∧ GCAt o al S kn (gc.knownCommand (fun c => logged (C c)) c exName).2) := by
  rcases known_at C hal h c (command := exName) (by decide +kernel) with ⟨h1, h2⟩ | ⟨_, h0, b, h1, h2⟩
  · rcases h2 rfl with ⟨b, h2, h3⟩ | ⟨e, h3⟩
    · refine .inl ⟨b, h3, .inr h2, ?_⟩
      rw [← h2, upd_same]
      exact h1
    · exact .inr ⟨e, h3, h1⟩
  · exact .inl ⟨b, h1, .inl h0, h2⟩

theorem query_ne_ex : ∀ q ∈ queryNames, q ≠ exName := by decide +kernel

theorem known_query_at (C : Colour → Channel σ) (hal : AlOK al) (h : GCAt o al S kn gc) (c : Colour) {command : Str} (hc : command ∈ queryNames) :
    GCAt o al S kn (gc.knownCommand (fun c => logged (C c)) c command).2 := by
  rcases known_at C hal h c (queryName_word command hc) with ⟨hk, _⟩ | ⟨h1, _⟩
  · exact hk
  · exact absurd h1 (query_ne_ex command hc)

theorem maybe_at (C : Colour → Channel σ) (hal : AlOK al) (h : GCAt o al S kn gc) (c : Colour) {command : Str} (hc : command ∈ queryNames) :
    GCAt o al S kn (gc.maybeSend (fun c => logged (C c)) c command []).2 := by
  unfold GC.maybeSend
  have hk := known_query_at C hal h c hc
  cases hx : gc.knownCommand (fun c => logged (C c)) c command with
  | mk x gc1 =>
    rw [hx] at hk
    cases x with
    | error e => exact hk
    | ok b =>
      cases b with
      | false => exact hk
      | true =>
        simp only at hk ⊢
        have hp := (perform_query (C c) gc1.cautious (hal.words c) (hk.ctl c) hc (args := []) (fun _ h => nomatch h)).1
        cases hy : (gc1.ctl c).perform (logged (C c)) gc1.cautious command [] with
        | mk y c' =>
          rw [hy] at hp
          cases y with
          | ok r => exact hk.setSame hp
          | error e => cases e <;> exact hk.setSame hp

theorem cpuTime_at (C : Colour → Channel σ) (float : Str → Option Rat) (hal : AlOK al) (h : GCAt o al S kn gc) (c : Colour) :
    GCAt o al S kn (gc.cpuTime (fun c => logged (C c)) float c).2 := by
  unfold GC.cpuTime
  have hk := known_query_at C hal h c (command := "gomill-cpu_time".toList) (by decide +kernel)
  cases hx : gc.knownCommand (fun c => logged (C c)) c "gomill-cpu_time".toList with
  | mk x gc1 =>
    rw [hx] at hk
    cases x with
    | error e => exact hk
    | ok b =>
      cases b with
      | false => exact hk
      | true =>
        simp only at hk ⊢
        have hm := maybe_at C hal hk c (command := "gomill-cpu_time".toList) (by decide +kernel)
        cases hy : gc1.maybeSend (fun c => logged (C c)) c "gomill-cpu_time".toList [] with
        | mk y gc2 =>
          rw [hy] at hm
          cases y with
          | error e => cases e <;> exact hm
          | ok r =>
            cases r with
            | none => exact hm
            | some s =>
              simp only
              split <;> exact hm

theorem cpuTimes_at (C : Colour → Channel σ) (float : Str → Option Rat) (hal : AlOK al) (h : GCAt o al S kn gc) :
    GCAt o al S kn (gc.cpuTimes (fun c => logged (C c)) float).2 := by
  unfold GC.cpuTimes
  have h1 := cpuTime_at C float hal h .b
  cases hx : gc.cpuTime (fun c => logged (C c)) float .b with
  | mk x gc1 =>
    rw [hx] at h1
    cases x with
    | error e => exact h1
    | ok r =>
      have h2 := cpuTime_at C float hal h1 .w
      obtain ⟨tb, eb⟩ := r
      simp only at h2 ⊢
      cases hy : gc1.cpuTime (fun c => logged (C c)) float .w with
      | mk y gc2 =>
        rw [hy] at h2
        cases y with
        | error e => exact h2
        | ok r => exact h2

theorem askScorers_at (C : Colour → Channel σ) (hal : AlOK al) : ∀ (cs : List Colour) (gc : GC (σ × List Event)), GCAt o al S kn gc →
    GCAt o al S kn (askScorers (fun c => logged (C c)) cs gc).2 := by
  intro cs
  induction cs with
  | nil => intro gc h; exact h
  | cons c cs ih =>
    intro gc h
    unfold askScorers
    have hm := maybe_at C hal h c (command := "final_score".toList) (by decide +kernel)
    cases hx : gc.maybeSend (fun c => logged (C c)) c "final_score".toList [] with
    | mk x gc1 =>
      rw [hx] at hm
      cases x with
      | error e => exact hm
      | ok r =>
        have h2 := ih gc1 hm
        simp only
        cases hy : askScorers (fun c => logged (C c)) cs gc1 with
        | mk y gc2 =>
          rw [hy] at h2
          cases y with
          | error e => exact h2
          | ok l => exact h2

end Gomill.Gtp
