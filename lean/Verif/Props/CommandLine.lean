import Verif.Spec.CommandLine
import Verif.Props.PlayerCheck
import Mathlib.Tactic.IntervalCases
/-
C80: the command line.
-/
namespace Gomill.Conf
open Py Spec

variable {σ : Type}

/-- What a part of the program does: `H` is what can happen when there are no exceptions from calls, and the result. -/
def Tells (W : CmdWorld σ) (H : List (List Event × Except CmdExc Nat)) (f : CmdSt σ → Except CmdExc Nat × CmdSt σ) : Prop :=
  ∀ st, ∃ es, (f st).2.events = st.events ++ es ∧ (f st).2.err = st.err ∧ Replays W es st.s (f st).2.s ∧
    ((es, (f st).1) ∈ H ∨ ∃ h ∈ H, ∃ k e, ∃ hk : k < h.1.length, es = h.1.take k ++ [.raised (callOf h.1[k]) e] ∧ (f st).1 = .error e)

theorem tells_pure (W : CmdWorld σ) (x : Except CmdExc Nat) (g : CmdSt σ → CmdSt σ) (hg : ∀ st, (g st).s = st.s ∧ (g st).events = st.events ∧ (g st).err = st.err) :
    Tells W [([], x)] (fun st => (x, g st)) := by
  intro st
  obtain ⟨h1, h2, h3⟩ := hg st
  refine ⟨[], by simp only [List.append_nil]; exact h2, h3, ?_, .inl (by simp)⟩
  show Replays W [] st.s (g st).s
  rw [h1]; exact .nil

theorem tells_first (W : CmdWorld σ) {H : List (List Event × Except CmdExc Nat)} {f : CmdSt σ → Except CmdExc Nat × CmdSt σ} {g : CmdSt σ → CmdSt σ}
    (hg : ∀ st, (g st).s = st.s ∧ (g st).events = st.events ∧ (g st).err = st.err) (h : Tells W H f) : Tells W H (fun st => f (g st)) := by
  intro st
  obtain ⟨h1, h2, h3⟩ := hg st
  obtain ⟨es, a, b, c, d⟩ := h (g st)
  exact ⟨es, by rw [a, h2], by rw [b, h3], by rw [← h1]; exact c, d⟩

theorem tells_ask (W : CmdWorld σ) (c : Call) {H0 H1 : List (List Event × Except CmdExc Nat)} {f : Bool → CmdSt σ → Except CmdExc Nat × CmdSt σ}
    (hn : H0 ≠ []) (h0 : Tells W H0 (f false)) (h1 : Tells W H1 (f true)) :
    Tells W (H0.map (fun h => (.asked c false :: h.1, h.2)) ++ H1.map (fun h => (.asked c true :: h.1, h.2))) (fun st => andThen (ask W c st) f) := by
  intro st
  dsimp only
  cases hr : W.ask c st.s with | mk r s =>
  cases r with
  | error e =>
    have he : andThen (ask W c st) f = (.error e, { st with s := s, events := st.events ++ [.raised c e] }) := by unfold ask; rw [hr]; rfl
    rw [he]
    refine ⟨[.raised c e], rfl, rfl, .raisedAsk hr, .inr ?_⟩
    obtain ⟨x, hx⟩ := List.exists_mem_of_ne_nil _ hn
    exact ⟨_, List.mem_append_left _ (List.mem_map_of_mem hx), 0, e, Nat.succ_pos _, rfl, rfl⟩
  | ok b =>
    have he : andThen (ask W c st) f = f b { st with s := s, events := st.events ++ [.asked c b] } := by unfold ask; rw [hr]; rfl
    rw [he]
    have key : ∀ {H : List (List Event × Except CmdExc Nat)} {G : List (List Event × Except CmdExc Nat)}, Tells W H (f b) →
        (∀ x ∈ H, (Event.asked c b :: x.1, x.2) ∈ G) →
        ∃ es, (f b { st with s := s, events := st.events ++ [.asked c b] }).2.events = st.events ++ es ∧ (f b { st with s := s, events := st.events ++ [.asked c b] }).2.err = st.err ∧
          Replays W es st.s (f b { st with s := s, events := st.events ++ [.asked c b] }).2.s ∧
          ((es, (f b { st with s := s, events := st.events ++ [.asked c b] }).1) ∈ G ∨ ∃ h ∈ G, ∃ k e, ∃ hk : k < h.1.length, es = h.1.take k ++ [.raised (callOf h.1[k]) e] ∧
            (f b { st with s := s, events := st.events ++ [.asked c b] }).1 = .error e) := by
      intro H G h hm
      obtain ⟨es, h1, h2, h3, h4⟩ := h { st with s := s, events := st.events ++ [.asked c b] }
      refine ⟨.asked c b :: es, by rw [h1]; simp, h2, .asked hr h3, ?_⟩
      rcases h4 with h4 | ⟨x, hx, k, e, hk, h4, h5⟩
      · exact .inl (hm _ h4)
      · refine .inr ⟨_, hm x hx, k + 1, e, Nat.succ_lt_succ hk, ?_, h5⟩
        rw [h4]; rfl
    cases b with
    | false => exact key h0 (fun x hx => List.mem_append_left _ (List.mem_map.2 ⟨x, hx, rfl⟩))
    | true => exact key h1 (fun x hx => List.mem_append_right _ (List.mem_map.2 ⟨x, hx, rfl⟩))

theorem tells_perform (W : CmdWorld σ) (c : Call) {H : List (List Event × Except CmdExc Nat)} {f : CmdSt σ → Except CmdExc Nat × CmdSt σ}
    (hn : H ≠ []) (h : Tells W H f) :
    Tells W (H.map (fun h => (.did c :: h.1, h.2))) (fun st => andThen (perform W c st) (fun _ => f)) := by
  intro st
  dsimp only
  cases hr : W.perform c st.s with | mk r s =>
  cases r with
  | error e =>
    have he : andThen (perform W c st) (fun _ => f) = (.error e, { st with s := s, events := st.events ++ [.raised c e] }) := by unfold perform; rw [hr]; rfl
    rw [he]
    refine ⟨[.raised c e], rfl, rfl, .raised hr, .inr ?_⟩
    obtain ⟨x, hx⟩ := List.exists_mem_of_ne_nil _ hn
    exact ⟨_, List.mem_map_of_mem hx, 0, e, Nat.succ_pos _, rfl, rfl⟩
  | ok u =>
    have he : andThen (perform W c st) (fun _ => f) = f { st with s := s, events := st.events ++ [.did c] } := by unfold perform; rw [hr]; rfl
    rw [he]
    obtain ⟨es, h1, h2, h3, h4⟩ := h { st with s := s, events := st.events ++ [.did c] }
    refine ⟨.did c :: es, by rw [h1]; simp, h2, .did hr h3, ?_⟩
    rcases h4 with h4 | ⟨x, hx, k, e, hk, h4, h5⟩
    · exact .inl (List.mem_map.2 ⟨_, h4, rfl⟩)
    · refine .inr ⟨_, List.mem_map_of_mem hx, k + 1, e, Nat.succ_lt_succ hk, ?_, h5⟩
      rw [h4]; rfl

/-- The exit status and stderr for a result. -/
def finish (x : Except CmdExc Nat) : Nat × List Str :=
  match x with
  | .ok n => (n, [])
  | .error e => (exitFor e, stderrFor e)

theorem print_same (s : Str) (st : CmdSt σ) : (st.print s).s = st.s ∧ (st.print s).events = st.events ∧ (st.print s).err = st.err := ⟨rfl, rfl, rfl⟩

/-- What an action does, with its result. -/
def actionResults (o : Options) : Command → List (List Event × Except CmdExc Nat)
  | .run =>
    [([.asked (.checkPlayers true o.quiet) false], .ok 1),
     ([.asked (.checkPlayers true o.quiet) true, .asked .statusExists false, .did .setCleanStatus, .did (.run o.maxGames o.logGtp o.quiet o.parallel), .did .report], .ok 0),
     ([.asked (.checkPlayers true o.quiet) true, .asked .statusExists true, .did .loadStatus, .did (.run o.maxGames o.logGtp o.quiet o.parallel), .did .report], .ok 0)]
  | .stop => [([.did .writeStop], .ok 0)]
  | .show => [([.asked .statusExists false], .error (.ringmaster "no status file".toList)), ([.asked .statusExists true, .did .loadStatus, .did .printStatusReport], .ok 0)]
  | .report => [([.asked .statusExists false], .error (.ringmaster "no status file".toList)), ([.asked .statusExists true, .did .loadStatus, .did .report], .ok 0)]
  | .reset => [([.did .deleteStateAndOutput], .ok 0)]
  | .check => [([.asked (.checkPlayers false o.quiet) false], .ok 1), ([.asked (.checkPlayers false o.quiet) true], .ok 0)]
  | .debugstatus => [([.did .printStatus], .ok 0)]

theorem tells_action (W : CmdWorld σ) (o : Options) (c : Command) : Tells W (actionResults o c) (action W o c) := by
  have ok := fun n : Nat => tells_pure W (.ok n) (fun st => st) (fun _ => ⟨rfl, rfl, rfl⟩)
  have showing : ∀ c, Tells W [([.asked .statusExists false], .error (.ringmaster "no status file".toList)), ([.asked .statusExists true, .did .loadStatus, .did c], .ok 0)] (doShow W c) := by
    intro c
    have h := tells_perform W .loadStatus (by simp) (tells_perform W c (by simp) (ok 0))
    exact tells_ask W .statusExists (f := fun ex st => if !ex then (.error (.ringmaster "no status file".toList), st) else
      andThen (perform W .loadStatus st) fun _ st => andThen (perform W c st) fun _ st => (.ok 0, st))
      (by simp) (tells_pure W (.error (.ringmaster "no status file".toList)) (fun st => st) (fun _ => ⟨rfl, rfl, rfl⟩)) h
  cases c with
  | run =>
    have h3 := tells_perform W (.run o.maxGames o.logGtp o.quiet o.parallel) (by simp) (tells_perform W .report (by simp) (ok 0))
    have h5 := tells_ask W .statusExists (f := fun ex st => andThen (perform W (if ex then .loadStatus else .setCleanStatus) st) fun _ st =>
      andThen (perform W (.run o.maxGames o.logGtp o.quiet o.parallel) st) fun _ st => andThen (perform W .report st) fun _ st => (.ok 0, st))
      (by simp) (tells_perform W .setCleanStatus (by simp) h3) (tells_perform W .loadStatus (by simp) h3)
    have h6 := tells_pure W (.ok 1) (fun st => st.print "(use the 'check' command to see stderr output)".toList) (fun st => print_same _ st)
    have h7 := tells_ask W (.checkPlayers true o.quiet) (f := fun ok st => if !ok then (.ok 1, st.print "(use the 'check' command to see stderr output)".toList) else
      andThen (ask W .statusExists st) fun ex st =>
      andThen (perform W (if ex then .loadStatus else .setCleanStatus) st) fun _ st =>
      andThen (perform W (.run o.maxGames o.logGtp o.quiet o.parallel) st) fun _ st =>
      andThen (perform W .report st) fun _ st => (.ok 0, st)) (by simp) h6 h5
    exact tells_first W (g := fun st => if o.quiet then st else st.print "running startup checks on all players".toList)
      (fun st => by cases o.quiet <;> exact ⟨rfl, rfl, rfl⟩) h7
  | stop => exact tells_perform W .writeStop (by simp) (ok 0)
  | «show» => exact showing _
  | report => exact showing _
  | reset => exact tells_perform W .deleteStateAndOutput (by simp) (ok 0)
  | check =>
    exact tells_ask W (.checkPlayers false o.quiet) (f := fun ok st => if !ok then (.ok 1, st) else (.ok 0, st)) (by simp) (ok 1) (ok 0)
  | debugstatus => exact tells_perform W .printStatus (by simp) (ok 0)

theorem tells_main (W : CmdWorld σ) (path : Str) (o : Options) (c : Command) :
    Tells W (([.asked .controlExists false], .error (.ringmaster ("control file ".toList ++ path ++ " not found".toList))) ::
      (actionResults o c).map (fun h => (.asked .controlExists true :: .did .make :: h.1, h.2))) (mainBody W path c o) := by
  have h := tells_ask W .controlExists (f := fun ex st => if !ex then (.error (.ringmaster ("control file ".toList ++ path ++ " not found".toList)), st) else
      andThen (perform W .make st) fun _ st => action W o c st)
    (by simp) (tells_pure W (.error (.ringmaster ("control file ".toList ++ path ++ " not found".toList))) (fun st => st) (fun _ => ⟨rfl, rfl, rfl⟩))
    (tells_perform W .make (by cases c <;> simp [actionResults]) (tells_action W o c))
  rw [List.map_map] at h
  exact h

theorem histories_eq (path : Str) (o : Options) (c : Command) : histories path o c =
    (([.asked .controlExists false], .error (.ringmaster ("control file ".toList ++ path ++ " not found".toList))) ::
      (actionResults o c).map (fun h => (.asked .controlExists true :: .did .make :: h.1, h.2))).map (fun h => (h.1, (finish h.2).1, (finish h.2).2)) := by
  have e : "ringmaster: control file ".toList ++ path ++ " not found".toList = "ringmaster: ".toList ++ ("control file ".toList ++ path ++ " not found".toList) := by
    simp only [← List.append_assoc]; rfl
  unfold histories
  rw [e]
  cases c <;> rfl

theorem cmdMain_ok (W : CmdWorld σ) {args : List Str} {path : Str} {c : Command} (h : parseArgs args = .ok (path, c)) (o : Options) (s : σ) :
    let r := mainBody W path c o ⟨s, [], [], []⟩
    cmdMain W args o s = ((finish r.1).1, { r.2 with err := r.2.err ++ (finish r.1).2 }) := by
  intro r
  unfold cmdMain
  rw [h]
  dsimp only
  change (match r with
    | (.ok n, st) => (n, st)
    | (.error (.ringmaster e), st) => (1, { st with err := st.err ++ ["ringmaster: ".toList ++ e] })
    | (.error .interrupt, st) => (3, st)
    | (.error (.internal e), st) => (4, { st with err := st.err ++ ["ringmaster: internal error".toList, e] })
    | (.error (.other e), st) => (4, { st with err := st.err ++ ["ringmaster: internal error".toList, e] }) : Nat × CmdSt σ) = _
  cases r with | mk x st =>
  cases x with
  | ok n => simp [finish]
  | error e => cases e <;> simp [finish, exitFor, stderrFor]

theorem parseArgs_iff {args : List Str} {path : Str} {c : Command} : parseArgs args = .ok (path, c) ↔ AsksFor args path c := by
  have names : ∀ name, commandNamed name = some c ↔ ∃ n, (n, c) ∈ commandNames ∧ name = n.toList := by
    intro name
    unfold commandNamed
    constructor
    · intro h
      obtain ⟨l1, l2, e, _⟩ := List.lookup_eq_some_iff.1 h
      have hm : (name, c) ∈ commandNames.map (fun x => (x.1.toList, x.2)) := by
        show (name, c) ∈ ([("run".toList, Command.run), ("stop".toList, .stop), ("show".toList, .show), ("report".toList, .report), ("reset".toList, .reset), ("check".toList, .check),
          ("debugstatus".toList, .debugstatus)])
        rw [e]; simp
      obtain ⟨⟨n, c'⟩, hx, e⟩ := List.mem_map.1 hm
      cases e
      exact ⟨n, hx, rfl⟩
    · rintro ⟨n, hn, rfl⟩
      have key : ∀ x ∈ commandNames, List.lookup x.1.toList [("run".toList, Command.run), ("stop".toList, .stop), ("show".toList, .show), ("report".toList, .report),
          ("reset".toList, .reset), ("check".toList, .check), ("debugstatus".toList, .debugstatus)] = some x.2 := by decide +kernel
      exact key _ hn
  unfold AsksFor
  match args with
  | [] => simp [parseArgs]
  | [p] => simp [parseArgs, eq_comm]
  | [p, name] =>
    have hp : parseArgs [p, name] = match commandNamed name with
      | some c => .ok (p, c)
      | none => .error ("no such command: ".toList ++ name) := rfl
    rw [hp]
    cases hn : commandNamed name with
    | none =>
      simp only [reduceCtorEq, List.cons.injEq, List.cons_ne_self, and_false, false_and, false_or, false_iff, not_exists, not_and, List.cons_ne_nil, and_true]
      rintro n hm rfl e
      have := (names name).2 ⟨n, hm, e⟩
      rw [hn] at this; cases this
    | some d =>
      simp only [Except.ok.injEq, Prod.mk.injEq, List.cons.injEq, List.cons_ne_nil, and_false, false_and, false_or, and_true]
      constructor
      · rintro ⟨rfl, rfl⟩
        obtain ⟨n, h1, h2⟩ := (names name).1 hn
        exact ⟨n, h1, rfl, h2⟩
      · rintro ⟨n, h1, rfl, h2⟩
        have := (names name).2 ⟨n, h1, h2⟩
        rw [hn] at this
        exact ⟨rfl, Option.some.inj this⟩
  | _ :: _ :: _ :: _ => simp [parseArgs]

/-- C80: what the program does: one of the histories for the command, unless a call raises an exception, when that call is the last thing in the history. The exit status
and what's printed to stderr are as they should be. -/
theorem C80_history (W : CmdWorld σ) (args : List Str) (path : Str) (c : Command) (h : AsksFor args path c) (o : Options) (s : σ) (n : Nat) (st : CmdSt σ)
    (hm : cmdMain W args o s = (n, st)) :
    Replays W st.events s st.s ∧
    ((st.events, n, st.err) ∈ histories path o c ∨
     ∃ h ∈ histories path o c, ∃ k e, ∃ hk : k < h.1.length, st.events = h.1.take k ++ [.raised (callOf h.1[k]) e] ∧ n = exitFor e ∧ st.err = stderrFor e) := by
  have hx := cmdMain_ok W (parseArgs_iff.2 h) o s
  dsimp only at hx
  rw [hm] at hx
  obtain ⟨hn, hst⟩ := Prod.mk.inj hx
  obtain ⟨es, h1, h2, h3, h4⟩ := tells_main W path o c ⟨s, [], [], []⟩
  have h1 : (mainBody W path c o ⟨s, [], [], []⟩).2.events = es := h1
  have h2 : (mainBody W path c o ⟨s, [], [], []⟩).2.err = [] := h2
  have e1 : st.events = es := by rw [hst]; exact h1
  have e2 : st.err = (finish (mainBody W path c o ⟨s, [], [], []⟩).1).2 := by rw [hst]; show _ ++ _ = _; rw [h2]; rfl
  have e3 : st.s = (mainBody W path c o ⟨s, [], [], []⟩).2.s := by rw [hst]
  rw [histories_eq, e1, e2, e3]
  refine ⟨h3, ?_⟩
  rcases h4 with h4 | ⟨x, hx, k, e, hk, h4, h5⟩
  · exact .inl (List.mem_map.2 ⟨_, h4, by rw [hn]⟩)
  · refine .inr ⟨_, List.mem_map_of_mem hx, k, e, hk, h4, ?_, ?_⟩
    · rw [hn, h5]; rfl
    · rw [h5]; rfl

/-- C80: a command line which makes no sense gives the exit status 2, and nothing is done. -/
theorem C80_usage (W : CmdWorld σ) (args : List Str) (h : ¬ ∃ path c, AsksFor args path c) (o : Options) (s : σ) :
    ∃ msg, cmdMain W args o s = (2, ⟨s, [], [], [msg]⟩) ∧
      ((args = [] ∧ msg = "ringmaster: error: no control file specified".toList) ∨ (2 < args.length ∧ msg = "ringmaster: error: too many arguments".toList) ∨
       ∃ path name, args = [path, name] ∧ msg = "ringmaster: error: no such command: ".toList ++ name) := by
  unfold cmdMain
  match args with
  | [] => exact ⟨_, rfl, .inl ⟨rfl, rfl⟩⟩
  | [p] => exact absurd ⟨p, .run, .inl ⟨rfl, rfl⟩⟩ h
  | [p, name] =>
    have hp : parseArgs [p, name] = match commandNamed name with
      | some c => .ok (p, c)
      | none => .error ("no such command: ".toList ++ name) := rfl
    cases hn : commandNamed name with
    | some c =>
      rw [hn] at hp
      exact absurd ⟨p, c, parseArgs_iff.1 hp⟩ h
    | none =>
      rw [hn] at hp
      rw [hp]
      exact ⟨_, rfl, .inr (.inr ⟨p, name, rfl, by simp only [← List.append_assoc]; rfl⟩)⟩
  | _ :: _ :: _ :: _ => exact ⟨_, rfl, .inr (.inl ⟨by simp, rfl⟩)⟩

/-- C80: no games are played unless the control file could be loaded and all players passed the checks (or they were to be skipped); if there's a status file the competition goes on
from the state in it, and otherwise starts from the initial state. -/
theorem C80_run (W : CmdWorld σ) (args : List Str) (o : Options) (s : σ) (ev : Event) (maxGames workers : Option Int) (gtpLogs quiet : Bool)
    (hev : ev ∈ (cmdMain W args o s).2.events) (hc : callOf ev = .run maxGames gtpLogs quiet workers) :
    (∃ path, AsksFor args path .run) ∧ maxGames = o.maxGames ∧ gtpLogs = o.logGtp ∧ quiet = o.quiet ∧ workers = o.parallel ∧
    ∃ ex, ([.asked .controlExists true, .did .make, .asked (.checkPlayers true o.quiet) true, .asked .statusExists ex, .did (if ex then .loadStatus else .setCleanStatus), ev] : List Event) <+:
      (cmdMain W args o s).2.events := by
  cases hm : cmdMain W args o s with | mk n st =>
  rw [hm] at hev
  by_cases hu : ∃ path c, AsksFor args path c
  · obtain ⟨path, c, ha⟩ := hu
    obtain ⟨_, h⟩ := C80_history W args path c ha o s n st hm
    have nc : ∀ h ∈ histories path o c, ∀ x ∈ h.1, callOf x = .run maxGames gtpLogs quiet workers →
        c = .run ∧ maxGames = o.maxGames ∧ gtpLogs = o.logGtp ∧ quiet = o.quiet ∧ workers = o.parallel ∧
        ∃ ex, h.1 = [.asked .controlExists true, .did .make, .asked (.checkPlayers true o.quiet) true, .asked .statusExists ex, .did (if ex then .loadStatus else .setCleanStatus),
          .did (.run o.maxGames o.logGtp o.quiet o.parallel), .did .report] ∧ x = .did (.run o.maxGames o.logGtp o.quiet o.parallel) := by
      intro h hh x hx hcx
      cases c <;> simp only [histories, actionHistories, List.map_cons, List.map_nil, List.mem_cons, List.not_mem_nil, or_false] at hh
      case run =>
        rcases hh with rfl | rfl | rfl | rfl <;> simp only [List.mem_cons, List.not_mem_nil, or_false] at hx
        · subst hx; cases hcx
        · rcases hx with rfl | rfl | rfl <;> cases hcx
        · rcases hx with rfl | rfl | rfl | rfl | rfl | rfl | rfl <;> cases hcx
          exact ⟨rfl, rfl, rfl, rfl, rfl, false, rfl, rfl⟩
        · rcases hx with rfl | rfl | rfl | rfl | rfl | rfl | rfl <;> cases hcx
          exact ⟨rfl, rfl, rfl, rfl, rfl, true, rfl, rfl⟩
      case stop =>
        rcases hh with rfl | rfl <;> simp only [List.mem_cons, List.not_mem_nil, or_false] at hx
        · subst hx; cases hcx
        · rcases hx with rfl | rfl | rfl <;> cases hcx
      case «show» =>
        rcases hh with rfl | rfl | rfl <;> simp only [List.mem_cons, List.not_mem_nil, or_false] at hx
        · subst hx; cases hcx
        · rcases hx with rfl | rfl | rfl <;> cases hcx
        · rcases hx with rfl | rfl | rfl | rfl | rfl <;> cases hcx
      case report =>
        rcases hh with rfl | rfl | rfl <;> simp only [List.mem_cons, List.not_mem_nil, or_false] at hx
        · subst hx; cases hcx
        · rcases hx with rfl | rfl | rfl <;> cases hcx
        · rcases hx with rfl | rfl | rfl | rfl | rfl <;> cases hcx
      case reset =>
        rcases hh with rfl | rfl <;> simp only [List.mem_cons, List.not_mem_nil, or_false] at hx
        · subst hx; cases hcx
        · rcases hx with rfl | rfl | rfl <;> cases hcx
      case check =>
        rcases hh with rfl | rfl | rfl <;> simp only [List.mem_cons, List.not_mem_nil, or_false] at hx
        · subst hx; cases hcx
        · rcases hx with rfl | rfl | rfl <;> cases hcx
        · rcases hx with rfl | rfl | rfl <;> cases hcx
      case debugstatus =>
        rcases hh with rfl | rfl <;> simp only [List.mem_cons, List.not_mem_nil, or_false] at hx
        · subst hx; cases hcx
        · rcases hx with rfl | rfl | rfl <;> cases hcx
    rcases h with h | ⟨h, hh, k, e, hk, h1, _⟩
    · obtain ⟨rfl, a1, a2, a3, a4, ex, hl, hx⟩ := nc _ h ev hev hc
      refine ⟨⟨path, ha⟩, a1, a2, a3, a4, ex, ?_⟩
      have hl : st.events = _ := hl
      show _ <+: st.events
      rw [hl, hx]
      exact ⟨[.did .report], rfl⟩
    · have hev : ev ∈ st.events := hev
      rw [h1] at hev
      rcases List.mem_append.1 hev with hev | hev
      · obtain ⟨rfl, a1, a2, a3, a4, ex, hl, hx⟩ := nc h hh ev (List.mem_of_mem_take hev) hc
        refine ⟨⟨path, ha⟩, a1, a2, a3, a4, ex, ?_⟩
        show _ <+: st.events
        rw [h1]
        obtain ⟨hes, rest⟩ := h
        have hl : hes = _ := hl
        subst hl
        subst hx
        have hk : k < 7 := hk
        have h6 : ¬ k ≤ 5 := by
          intro h6
          have := hev
          interval_cases k <;> simp at this
          all_goals (cases ex <;> simp at this)
        have : k = 6 := by omega
        subst this
        exact ⟨[.raised .report e], rfl⟩
      · have : ev = .raised (callOf h.1[k]) e := by simpa using hev
        subst this
        have hc : callOf h.1[k] = .run maxGames gtpLogs quiet workers := hc
        obtain ⟨rfl, a1, a2, a3, a4, ex, hl, hx⟩ := nc h hh h.1[k] (List.getElem_mem hk) hc
        refine ⟨⟨path, ha⟩, a1, a2, a3, a4, ex, ?_⟩
        show _ <+: st.events
        rw [h1]
        obtain ⟨hes, rest⟩ := h
        have hl : hes = _ := hl
        subst hl
        have hk : k < 7 := hk
        have : k = 5 := by
          have := hx
          interval_cases k <;> simp at this
          · cases ex <;> simp at this
          · rfl
        subst this
        exact ⟨[], rfl⟩
  · obtain ⟨msg, h, _⟩ := C80_usage W args hu o s
    rw [hm] at h
    cases h
    cases hev

/-! ### Checking players -/

theorem checkLoop_spec (W : Gtp.JobWorld σ) (isDir : Str → Bool) (d : Bool) (checks : List StartupCheck) (hw : ∀ c ∈ checks, Gtp.Spec.CheckWords c.player (W.strFloat c.komi)) :
    ∀ out, ∃ b lines, checkLoop W isDir d checks out = (some b, out ++ lines) ∧
      ((b = true ∧ ∃ ws : List (List Str), ws.length = checks.length ∧ lines = (List.zipWith (passLines d) checks ws).flatten ∧
          ∀ x ∈ checks.zip ws, ∃ s, Gtp.Spec.Passes W isDir x.1.player x.1.boardSize x.1.komi d s ∧ (x.2 = [] ↔ Gtp.Spec.QuitsCleanly W.channel x.1.player s)) ∨
       (b = false ∧ ∃ pre c post msg, checks = pre ++ c :: post ∧ (∀ x ∈ pre, ∃ s, Gtp.Spec.Passes W isDir x.player x.boardSize x.komi d s) ∧
          (¬ ∃ s, Gtp.Spec.Passes W isDir c.player c.boardSize c.komi d s) ∧ Gtp.Spec.Fails W isDir c.player c.boardSize c.komi d msg ∧
          ∃ ws : List (List Str), ws.length = pre.length ∧ lines = (List.zipWith (passLines d) pre ws).flatten ++ (if d then [] else ["checking player ".toList ++ c.player.code]) ++
            ["player ".toList ++ c.player.code ++ " failed startup check:\n".toList ++ msg])) := by
  induction checks with
  | nil => exact fun out => ⟨true, [], by simp [checkLoop], .inl ⟨rfl, [], rfl, rfl, nofun⟩⟩
  | cons c cs ih =>
    intro out
    obtain ⟨x, ctl, h1, h2, h3, h4⟩ := Gtp.C72_check_player W isDir c.player c.boardSize c.komi d (hw c List.mem_cons_self)
    unfold checkLoop
    rw [h1]
    cases x with
    | error msg =>
      refine ⟨false, _, ?_, .inr ⟨rfl, [], c, cs, msg, rfl, nofun, ?_, h4 msg rfl, [], rfl, rfl⟩⟩
      · cases d <;> simp only [Bool.false_eq_true, if_true, if_false, List.append_assoc, List.nil_append, List.cons_append, List.zipWith_nil_left, List.flatten_nil]
      · intro hp
        obtain ⟨w, hw⟩ := h2.2 hp
        cases hw
    | ok warnings =>
      dsimp only
      obtain ⟨s, hs⟩ := h2.1 ⟨warnings, rfl⟩
      obtain ⟨b, lines, e, h⟩ := ih (fun c hc => hw c (List.mem_cons_of_mem _ hc)) (if d then (if d then out else out ++ ["checking player ".toList ++ c.player.code]) else
        (if d then out else out ++ ["checking player ".toList ++ c.player.code]) ++ warnings)
      refine ⟨b, passLines d c warnings ++ lines, ?_, ?_⟩
      · rw [e]; cases d <;> simp only [passLines, Bool.false_eq_true, if_true, if_false, List.append_assoc, List.nil_append, List.cons_append]
      · rcases h with ⟨hb, ws, l1, l2, l3⟩ | ⟨hb, pre, c', post, msg, l1, l2, l3, l4, ws, l5, l6⟩
        · refine .inl ⟨hb, warnings :: ws, by simp [l1], by rw [l2]; rfl, ?_⟩
          intro x hx
          rcases List.mem_cons.1 hx with rfl | hx
          · exact ⟨s, hs, h3 warnings s rfl hs⟩
          · exact l3 x hx
        · refine .inr ⟨hb, c :: pre, c', post, msg, by rw [l1]; rfl, ?_, l3, l4, warnings :: ws, by simp [l5], by rw [l6, List.zipWith_cons_cons, List.flatten_cons]; simp only [List.append_assoc]⟩
          intro x hx
          rcases List.mem_cons.1 hx with rfl | hx
          · exact ⟨s, hs⟩
          · exact l2 x hx

/-- C80: checking players succeeds exactly if the checks were to be skipped, or all players pass. The checks stop at the first failure, which is described. -/
theorem C80_check_players (W : Gtp.JobWorld σ) (isDir : Str → Bool) (skip discardStderr quiet : Bool) (checks : List StartupCheck)
    (hw : ∀ c ∈ checks, Gtp.Spec.CheckWords c.player (W.strFloat c.komi)) :
    ∃ b lines, checkPlayers W isDir skip discardStderr quiet checks = (some b, lines) ∧
      (b = true ↔ (skip = true ∧ discardStderr = true) ∨ ∀ c ∈ checks, ∃ s, Gtp.Spec.Passes W isDir c.player c.boardSize c.komi discardStderr s) ∧
      (b = false → ∃ pre c post msg before, checks = pre ++ c :: post ∧ (∀ x ∈ pre, ∃ s, Gtp.Spec.Passes W isDir x.player x.boardSize x.komi discardStderr s) ∧
        Gtp.Spec.Fails W isDir c.player c.boardSize c.komi discardStderr msg ∧
        lines = before ++ ["player ".toList ++ c.player.code ++ " failed startup check:\n".toList ++ msg] ∧ (discardStderr = true → before = [])) ∧
      (b = true → discardStderr = true → lines = if skip && !quiet then ["skipping ".toList ++ strInt checks.length ++ " Player checks".toList] else []) ∧
      (b = true → discardStderr = false → ∃ ws : List (List Str), ws.length = checks.length ∧
        lines = (List.zipWith (fun c w => ("checking player ".toList ++ c.player.code) :: w) checks ws).flatten ∧
        ∀ x ∈ checks.zip ws, ∃ s, Gtp.Spec.Passes W isDir x.1.player x.1.boardSize x.1.komi discardStderr s ∧ (x.2 = [] ↔ Gtp.Spec.QuitsCleanly W.channel x.1.player s)) := by
  have hz : ∀ (cs : List StartupCheck) (ws : List (List Str)), (List.zipWith (passLines true) cs ws).flatten = [] := by
    intro cs
    induction cs with
    | nil => intro ws; rfl
    | cons c cs ih =>
      intro ws
      cases ws with
      | nil => rfl
      | cons w ws => simpa [passLines] using ih ws
  unfold checkPlayers
  by_cases hsk : (skip && discardStderr) = true
  · rw [if_pos hsk]
    obtain ⟨rfl, rfl⟩ := (Bool.and_eq_true _ _).mp hsk
    refine ⟨true, _, rfl, ⟨fun _ => .inl ⟨rfl, rfl⟩, fun _ => rfl⟩, nofun, fun _ _ => ?_, nofun⟩
    cases quiet <;> rfl
  · rw [if_neg hsk]
    obtain ⟨b, lines, e, h⟩ := checkLoop_spec W isDir discardStderr checks hw []
    refine ⟨b, lines, e, ?_, ?_, ?_, ?_⟩
    · rcases h with ⟨rfl, ws, l1, l2, l3⟩ | ⟨rfl, pre, c', post, msg, l1, l2, l3, l4, ws, l5, l6⟩
      · refine ⟨fun _ => .inr ?_, fun _ => rfl⟩
        intro c hc
        obtain ⟨i, hi, rfl⟩ := List.mem_iff_getElem.1 hc
        obtain ⟨s, hs, _⟩ := l3 (checks[i], ws[i]'(by omega)) (by
          rw [List.mem_iff_getElem]
          exact ⟨i, by simp [l1, hi], by simp⟩)
        exact ⟨s, hs⟩
      · refine ⟨nofun, fun h => ?_⟩
        rcases h with ⟨h1, h2⟩ | h
        · rw [h1, h2] at hsk; exact absurd rfl hsk
        · exact absurd (h c' (by rw [l1]; simp)) l3
    · intro hb
      rcases h with ⟨rfl, _⟩ | ⟨-, pre, c', post, msg, l1, l2, l3, l4, ws, l5, l6⟩
      · cases hb
      · refine ⟨pre, c', post, msg, _, l1, l2, l4, l6, ?_⟩
        rintro rfl
        rw [hz]; rfl
    · intro hb hd
      rcases h with ⟨-, ws, l1, l2, l3⟩ | ⟨rfl, _⟩
      · subst hd
        have : skip = false := by cases skip <;> simp_all
        subst this
        rw [l2, hz]; rfl
      · cases hb
    · intro hb hd
      rcases h with ⟨-, ws, l1, l2, l3⟩ | ⟨rfl, _⟩
      · subst hd
        exact ⟨ws, l1, l2, l3⟩
      · cases hb

/-! ### The status file -/

variable {κ γ : Type}

theorem readStatus_version {v version compVersion : Nat} (h : v ≠ version) (d : StatusDict κ) : readStatus (.ok (v, d)) version compVersion = .error .exception := by
  unfold readStatus
  simp [bind, Except.bind, h, throw, throwThe, MonadExceptOf.throw]

theorem readStatus_noVersion {version compVersion : Nat} {d : StatusDict κ} (h : d.compVersion = none) : readStatus (.ok (version, d)) version compVersion = .error (.key "'comp_vn'".toList) := by
  unfold readStatus
  simp only [bind, Except.bind, need, pure, Except.pure, ne_eq, not_true_eq_false, if_false, h]

theorem readStatus_compVersion {version compVersion cv : Nat} {d : StatusDict κ} (h : d.compVersion = some cv) (hc : cv ≠ compVersion) :
    readStatus (.ok (version, d)) version compVersion = .error .exception := by
  unfold readStatus
  simp [bind, Except.bind, h, hc, need, throw, throwThe, MonadExceptOf.throw, pure, Except.pure]

theorem readStatus_noCount {version compVersion : Nat} {d : StatusDict κ} (h : d.compVersion = some compVersion) (hn : d.voidGameCount = none) :
    readStatus (.ok (version, d)) version compVersion = .error (.key "'void_game_count'".toList) := by
  unfold readStatus
  simp only [bind, Except.bind, need, pure, Except.pure, ne_eq, not_true_eq_false, if_false, h, hn]

theorem readStatus_noComp {version compVersion n : Nat} {d : StatusDict κ} (h : d.compVersion = some compVersion) (hn : d.voidGameCount = some n) (hc : d.comp = none) :
    readStatus (.ok (version, d)) version compVersion = .error (.key "'comp'".toList) := by
  unfold readStatus
  simp only [bind, Except.bind, need, pure, Except.pure, ne_eq, not_true_eq_false, if_false, h, hn, hc]

theorem readStatus_ok {version compVersion n : Nat} {c : κ} : readStatus (.ok (version, ⟨some n, some compVersion, some c⟩)) version compVersion = .ok (n, c) := by
  unfold readStatus
  simp only [bind, Except.bind, need, pure, Except.pure, ne_eq, not_true_eq_false, if_false]

/-- C80: loading a status file. It is accepted exactly if it has the right versions, the void game count and the competition's status, and the competition accepts that status. The
only exception is RingmasterError, with a message which depends on what is wrong. -/
theorem C80_load_status (setStatus : κ → γ → Except SetExc γ) (file : Except LoadExc (Nat × StatusDict κ)) (version compVersion : Nat) (r : RmStatus γ) :
    (∀ r', loadStatus setStatus file version compVersion r = .ok r' ↔
      ∃ n c, file = .ok (version, ⟨some n, some compVersion, some c⟩) ∧ setStatus c r.competition = .ok r'.competition ∧
        r' = ⟨r'.competition, n, [], [], true⟩) ∧
    (∀ msg, loadStatus setStatus file version compVersion r = .error msg →
      (file = .error .unpickling ∧ msg = "corrupt status file".toList) ∨
      (∃ e, file = .error (.environment e) ∧ msg = "error loading status file:\n".toList ++ e) ∨
      (∃ k, msg = "incompatible status file: missing ".toList ++ k ∧ (file = .error (.key k) ∨ ∃ d, file = .ok (version, d) ∧
        ((k = "'comp_vn'".toList ∧ d.compVersion = none) ∨ (k = "'void_game_count'".toList ∧ d.voidGameCount = none) ∨ (k = "'comp'".toList ∧ d.comp = none)))) ∨
      (msg = "incompatible status file".toList ∧ (file = .error .exception ∨ ∃ v d, file = .ok (v, d) ∧ (v ≠ version ∨ ∃ cv, d.compVersion = some cv ∧ cv ≠ compVersion))) ∨
      (∃ n c e, file = .ok (version, ⟨some n, some compVersion, some c⟩) ∧ setStatus c r.competition = .error e ∧
        msg = "error loading competition state:".toList ++ (match e with | .competition t => ' ' :: t | .key k => " missing ".toList ++ k | .exception t => '\n' :: t))) := by
  have fails : ∀ e, readStatus file version compVersion = .error e → (∀ r', loadStatus setStatus file version compVersion r ≠ .ok r') ∧
      ∀ msg, loadStatus setStatus file version compVersion r = .error msg → msg = e.message := by
    intro e he
    unfold loadStatus
    rw [he]
    exact ⟨nofun, fun msg h => by injection h with h; exact h.symm⟩
  cases hf : file with
  | error e =>
    subst hf
    have hr := fails e rfl
    refine ⟨fun r' => ⟨fun h => absurd h (hr.1 r'), ?_⟩, fun msg h => ?_⟩
    · rintro ⟨n, c, h, _⟩; cases h
    · have h := hr.2 msg h
      subst h
      cases e with
      | unpickling => exact .inl ⟨rfl, rfl⟩
      | environment e => exact .inr (.inl ⟨e, rfl, rfl⟩)
      | key k => exact .inr (.inr (.inl ⟨k, rfl, .inl rfl⟩))
      | exception => exact .inr (.inr (.inr (.inl ⟨rfl, .inl rfl⟩)))
  | ok f =>
    subst hf
    obtain ⟨v, ⟨n, cv, c⟩⟩ := f
    by_cases hv : v = version
    · subst hv
      cases cv with
      | none =>
        have hr := fails _ (readStatus_noVersion rfl)
        refine ⟨fun r' => ⟨fun h => absurd h (hr.1 r'), ?_⟩, fun msg h => ?_⟩
        · rintro ⟨n, c, h, _⟩; cases h
        · exact .inr (.inr (.inl ⟨"'comp_vn'".toList, hr.2 msg h, .inr ⟨_, rfl, .inl ⟨rfl, rfl⟩⟩⟩))
      | some cv =>
        by_cases hc : cv = compVersion
        · subst hc
          cases n with
          | none =>
            have hr := fails _ (readStatus_noCount rfl rfl)
            refine ⟨fun r' => ⟨fun h => absurd h (hr.1 r'), ?_⟩, fun msg h => ?_⟩
            · rintro ⟨n, c, h, _⟩; cases h
            · exact .inr (.inr (.inl ⟨"'void_game_count'".toList, hr.2 msg h, .inr ⟨_, rfl, .inr (.inl ⟨rfl, rfl⟩)⟩⟩))
          | some n =>
            cases c with
            | none =>
              have hr := fails _ (readStatus_noComp rfl rfl rfl)
              refine ⟨fun r' => ⟨fun h => absurd h (hr.1 r'), ?_⟩, fun msg h => ?_⟩
              · rintro ⟨n, c, h, _⟩; cases h
              · exact .inr (.inr (.inl ⟨"'comp'".toList, hr.2 msg h, .inr ⟨_, rfl, .inr (.inr ⟨rfl, rfl⟩)⟩⟩))
            | some c =>
              unfold loadStatus
              rw [readStatus_ok]
              dsimp only
              cases hs : setStatus c r.competition with
              | error e =>
                refine ⟨fun r' => ⟨nofun, ?_⟩, fun msg h => ?_⟩
                · rintro ⟨n, c, h, h2, _⟩
                  cases h
                  rw [hs] at h2; cases h2
                · injection h with h
                  subst h
                  refine .inr (.inr (.inr (.inr ⟨n, c, e, rfl, hs, ?_⟩)))
                  cases e with
                  | competition t => show "error loading competition state: ".toList ++ t = _ ++ ' ' :: t; rw [List.append_cons]; rfl
                  | key k => show "error loading competition state: missing ".toList ++ k = _ ++ (" missing ".toList ++ k); rw [← List.append_assoc]; rfl
                  | exception t => show "error loading competition state:\n".toList ++ t = _ ++ '\n' :: t; rw [List.append_cons]; rfl
              | ok g =>
                refine ⟨fun r' => ⟨fun h => ?_, ?_⟩, nofun⟩
                · injection h with h
                  subst h
                  exact ⟨n, c, rfl, hs, rfl⟩
                · rintro ⟨n, c, h, h2, h3⟩
                  cases h
                  rw [hs] at h2
                  injection h2 with h2
                  rw [h3, h2]
        · have hr := fails _ (readStatus_compVersion rfl hc)
          refine ⟨fun r' => ⟨fun h => absurd h (hr.1 r'), ?_⟩, fun msg h => ?_⟩
          · rintro ⟨n, c, h, _⟩; cases h; exact absurd rfl hc
          · exact .inr (.inr (.inr (.inl ⟨hr.2 msg h, .inr ⟨_, _, rfl, .inr ⟨cv, rfl, hc⟩⟩⟩)))
    · have hr := fails _ (readStatus_version hv _)
      refine ⟨fun r' => ⟨fun h => absurd h (hr.1 r'), ?_⟩, fun msg h => ?_⟩
      · rintro ⟨n, c, h, _⟩; cases h; exact absurd rfl hv
      · exact .inr (.inr (.inr (.inl ⟨hr.2 msg h, .inr ⟨_, _, rfl, .inl hv⟩⟩)))

/-- C80: a status file written by the ringmaster can be loaded, if the competition accepts its own status. -/
theorem C80_written_status (getStatus : γ → κ) (setStatus : κ → γ → Except SetExc γ) (version compVersion : Nat) (r r0 : RmStatus γ) (g : γ)
    (hg : setStatus (getStatus r.competition) r0.competition = .ok g) :
    loadStatus setStatus (.ok (statusToWrite getStatus version compVersion r)) version compVersion r0 = .ok ⟨g, r.voidGameCount, [], [], true⟩ :=
  ((C80_load_status setStatus _ version compVersion r0).1 _).2 ⟨_, _, rfl, hg, rfl⟩

/-- C80: starting with a clean status: the competition's own, no void games, and no games in progress or to be played again; it fails only if the competition says so, with the competition's message. -/
theorem C80_clean_status (clean : γ → Except Str γ) (r : RmStatus γ) :
    (∀ r', setCleanStatus clean r = .ok r' ↔ clean r.competition = .ok r'.competition ∧ r'.voidGameCount = 0 ∧ r'.gamesInProgress = [] ∧ r'.gamesToReplay = [] ∧ r'.loaded = true) ∧
    ∀ msg, setCleanStatus clean r = .error msg ↔ clean r.competition = .error msg := by
  unfold setCleanStatus
  cases clean r.competition with
  | error e => exact ⟨fun r' => ⟨fun h => (by cases h), fun h => (by cases h.1)⟩, fun msg => ⟨fun h => (by injection h with h; rw [h]), fun h => (by injection h with h; rw [h])⟩⟩
  | ok g =>
    refine ⟨fun r' => ⟨fun h => ?_, fun h => ?_⟩, fun msg => ⟨fun h => (by cases h), fun h => (by cases h)⟩⟩
    · injection h with h; subst h; exact ⟨rfl, rfl, rfl, rfl, rfl⟩
    · obtain ⟨c, n, p, q, l⟩ := r'
      obtain ⟨h1, h2, h3, h4, h5⟩ := h
      injection h1 with h1
      dsimp only at h1 h2 h3 h4 h5
      subst h1 h2 h3 h4 h5
      rfl

/-! ### An example -/

/-- A world in which the answers to questions are given, and the run raises an exception if there's one. -/
def exampleCmd (answer : Call → Bool) (runRaises : Option CmdExc) : CmdWorld Unit where
  ask c _ := (.ok (answer c), ())
  perform c _ := match c, runRaises with
    | .run .., some e => (.error e, ())
    | _, _ => (.ok (), ())

def exampleOptions : Options := ⟨some 10, none, false, true⟩

/-- The exit status and the events. -/
def cmdView (W : CmdWorld Unit) (args : List String) : Nat × List Event := let r := cmdMain W (args.map String.toList) exampleOptions (); (r.1, r.2.events)

/-- C80: non-vacuity: a run which goes on from a status file; one in which the players fail the checks; one which is interrupted; one in which there's an error; a command line which makes no sense. -/
theorem C80_witness :
    AsksFor ["x.ctl".toList] "x.ctl".toList .run ∧ AsksFor ["x.ctl".toList, "show".toList] "x.ctl".toList .show ∧
    cmdView (exampleCmd (fun _ => true) none) ["x.ctl"] =
      (0, [.asked .controlExists true, .did .make, .asked (.checkPlayers true false) true, .asked .statusExists true, .did .loadStatus, .did (.run (some 10) true false none), .did .report]) ∧
    cmdView (exampleCmd (fun c => c ≠ .checkPlayers true false) none) ["x.ctl"] = (1, [.asked .controlExists true, .did .make, .asked (.checkPlayers true false) false]) ∧
    cmdView (exampleCmd (fun c => c ≠ .statusExists) (some .interrupt)) ["x.ctl", "run"] =
      (3, [.asked .controlExists true, .did .make, .asked (.checkPlayers true false) true, .asked .statusExists false, .did .setCleanStatus, .raised (.run (some 10) true false none) .interrupt]) ∧
    (cmdMain (exampleCmd (fun _ => true) (some (.ringmaster "competition is already running".toList))) ["x.ctl".toList] exampleOptions ()).1 = 1 ∧
    (cmdMain (exampleCmd (fun c => c ≠ .statusExists) none) ["x.ctl".toList, "show".toList] exampleOptions ()).2.err = ["ringmaster: no status file".toList] ∧
    cmdView (exampleCmd (fun _ => true) none) ["x.ctl", "play"] = (2, []) := by
  refine ⟨.inl ⟨rfl, rfl⟩, .inr ⟨"show", by decide +kernel, rfl⟩, by decide +kernel, by decide +kernel, by decide +kernel, by decide +kernel, by decide +kernel, by decide +kernel⟩

/-- C80: non-vacuity for the players: one which passes, and one which doesn't (C72). -/
theorem C80_check_witness :
    let W : Gtp.JobWorld _ := { Gtp.exampleWorld "" "" with spawn := fun _ => .ok ([("list_commands".toList, []), ("set_komi".toList, []), ("quit".toList, [])] ++ Gtp.simpleEngine "pass", none) }
    let good : StartupCheck := ⟨Gtp.examplePlayer, 9, 13/2⟩
    let bad : StartupCheck := ⟨{ Gtp.examplePlayer with code := "bad".toList, cwd := some "/none".toList }, 9, 13/2⟩
    checkPlayers W (fun d => d = "/tmp".toList) false false false [good, bad, good] =
      (some false, ["checking player test".toList, "checking player bad".toList, "player bad failed startup check:\nbad working directory: /none".toList]) ∧
    checkPlayers W (fun d => d = "/tmp".toList) true true false [good, bad, good] = (some true, ["skipping 3 Player checks".toList]) ∧
    checkPlayers W (fun d => d = "/tmp".toList) false true false [good, good] = (some true, []) := by
  refine ⟨by decide +kernel, by decide +kernel, by decide +kernel⟩

end Gomill.Conf
