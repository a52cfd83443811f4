import Verif.Model.MogoWrapper
import Verif.Props.GtpProxy
/-
C105: the example mogo_wrapper.py.
-/
namespace Gomill.Gtp.Mogo
open Py

variable {σ : Type}

/-- The program was started, and its proxy has handled any commands since; anything may have happened to its controller meanwhile. -/
inductive Reached (C : Channel σ) (argv : List Str) (ctl : Ctl σ) : Proxy σ → Prop
  | start {p : Proxy σ} : main C argv ctl = .running p → Reached C argv ctl p
  | command {p : Proxy σ} (cmd : Str) (args : List Str) : Reached C argv ctl p → Reached C argv ctl (p.run C cmd args).2
  | elsewhere {p : Proxy σ} (ctl' : Ctl σ) : Reached C argv ctl p → Reached C argv ctl { p with ctl := ctl' }

/-- The board sizes, as they're given on the command line. -/
def IsSize (a size : Str) : Prop := (a = "--9".toList ∧ size = "9".toList) ∨ (a = "--13".toList ∧ size = "13".toList) ∨ (a = "--19".toList ∧ size = "19".toList)

theorem size_iff (a : Str) : (∃ s, IsSize a s) ↔ a ∈ ["--9", "--13", "--19"].map String.toList := by
  simp only [List.map_cons, List.map_nil, List.mem_cons, List.not_mem_nil, or_false]
  constructor
  · rintro ⟨s, ⟨h, _⟩ | ⟨h, _⟩ | ⟨h, _⟩⟩
    · exact .inl h
    · exact .inr (.inl h)
    · exact .inr (.inr h)
  · rintro (h | h | h)
    · exact ⟨_, .inl ⟨h, rfl⟩⟩
    · exact ⟨_, .inr (.inl ⟨h, rfl⟩)⟩
    · exact ⟨_, .inr (.inr ⟨h, rfl⟩)⟩

theorem size_drop {a s : Str} (h : IsSize a s) : a.drop 2 = s := by
  rcases h with ⟨rfl, rfl⟩ | ⟨rfl, rfl⟩ | ⟨rfl, rfl⟩ <;> decide +kernel

/-- C105: without a proper first argument the program stops at once, having sent nothing. Otherwise it asks the back end for its commands, and then sends it the boardsize command
with that size; if both succeed the proxy runs, and if not there's a traceback. -/
theorem C105_start (C : Channel σ) (argv : List Str) (ctl : Ctl σ) :
    ((¬ ∃ a rest s, argv = a :: rest ∧ IsSize a s) → main C argv ctl = .exit "mogo_wrapper: first parameter must be --9, --13, or --19".toList) ∧
    (∀ a rest s, argv = a :: rest → IsSize a s →
      (∀ e ctl', setBackEnd C ctl = (.error e, ctl') → main C argv ctl = .traceback e ctl') ∧
      (∀ p0 ctl' e ctl'', setBackEnd C ctl = (.ok p0, ctl') → passCommand C p0.ctl "boardsize".toList [s] = (.error e, ctl'') → main C argv ctl = .traceback e ctl'') ∧
      (∀ p0 ctl' r ctl'', setBackEnd C ctl = (.ok p0, ctl') → passCommand C p0.ctl "boardsize".toList [s] = (.ok r, ctl'') →
        ∃ p, main C argv ctl = .running p ∧ p.ctl = ctl'')) := by
  constructor
  · intro h
    unfold main
    split
    · rfl
    · rename_i a rest
      rw [if_pos]
      intro hm
      obtain ⟨s, hs⟩ := (size_iff a).2 hm
      exact h ⟨a, rest, s, rfl, hs⟩
  · rintro a rest s rfl hs
    have hm := (size_iff a).1 ⟨s, hs⟩
    unfold main
    simp only [size_drop hs]
    rw [if_neg (not_not.2 hm)]
    refine ⟨?_, ?_, ?_⟩
    · intro e ctl' h
      rw [h]
    · intro p0 ctl' e ctl'' h1 h2
      rw [h1]
      simp only [Proxy.addCommand, h2]
    · intro p0 ctl' r ctl'' h1 h2
      rw [h1]
      simp only [Proxy.addCommand, h2]
      exact ⟨_, rfl, rfl⟩

theorem reached_table {C : Channel σ} {argv : List Str} {ctl : Ctl σ} {p : Proxy σ} (h : Reached C argv ctl p) :
    ∃ a rest s p0 ctl', argv = a :: rest ∧ IsSize a s ∧ setBackEnd C ctl = (.ok p0, ctl') ∧
      p.handlers = ("boardsize".toList, .custom (handleBoardsize s)) :: ("version".toList, .custom handleVersion) :: p0.handlers ∧ p.exceptionsFatal = p0.exceptionsFatal := by
  induction h with
  | @start p h =>
    unfold main at h
    split at h
    · cases h
    · rename_i a rest
      split at h
      · cases h
      · rename_i hm
        obtain ⟨s, hs⟩ := (size_iff a).2 (not_not.1 hm)
        split at h
        · cases h
        · rename_i p0 ctl' hb
          simp only [size_drop hs] at h
          split at h
          · cases h
          · cases h
            exact ⟨a, rest, s, p0, ctl', rfl, hs, hb, rfl, rfl⟩
  | @command p cmd args _ ih =>
    obtain ⟨a, rest, s, p0, ctl', h1, h2, h3, h4, h5⟩ := ih
    refine ⟨a, rest, s, p0, ctl', h1, h2, h3, ?_⟩
    unfold Proxy.run
    split
    · exact ⟨h4, h5⟩
    · exact ⟨h4, h5⟩
  | elsewhere _ _ ih => exact ih

/-- C105: at any time, version gets the short answer, and boardsize succeeds just for the size the program was started for; nothing is sent to the back end. -/
theorem C105_own {C : Channel σ} {a s : Str} {rest : List Str} {ctl : Ctl σ} {p : Proxy σ} (h : Reached C (a :: rest) ctl p) (hs : IsSize a s) (args : List Str) :
    p.run C "version".toList args = ((false, "2007 public release".toList, false), p) ∧
    (∀ more, p.run C "boardsize".toList (s :: more) = ((false, [], false), p)) ∧
    (∀ x more, x ≠ s → p.run C "boardsize".toList (x :: more) = ((true, "board size ".toList ++ s ++ " only please".toList, false), p)) ∧
    p.run C "boardsize".toList [] = ((true, "invalid arguments".toList, false), p) := by
  obtain ⟨a', rest', s', p0, ctl', h1, h2, _, h4, _⟩ := reached_table h
  cases h1
  have : s' = s := by rw [← size_drop h2, ← size_drop hs]
  subst this
  have hb : p.handlers.lookup "boardsize".toList = some (.custom (handleBoardsize s')) := by
    rw [h4, List.lookup_cons_self]
  have hv : p.handlers.lookup "version".toList = some (.custom handleVersion) := by
    have hne : ("version".toList == "boardsize".toList) = false := by decide +kernel
    rw [h4, List.lookup_cons, hne]
    exact List.lookup_cons_self
  refine ⟨?_, ?_, ?_, ?_⟩
  · rw [(run_of_lookup C p hv).1, runCommand_call C p hv]
    have : cleanResponse (some "2007 public release".toList) = "2007 public release".toList := by decide +kernel
    exact Prod.ext (by show (false, cleanResponse _, false) = _; rw [this]) rfl
  · intro more
    rw [(run_of_lookup C p hb).1, runCommand_call C p hb]
    simp only [Handler.call, handleBoardsize, ne_eq, not_true, if_false]
    rfl
  · intro x more hx
    rw [(run_of_lookup C p hb).1, runCommand_call C p hb]
    simp only [Handler.call, handleBoardsize, ne_eq, hx, not_false_eq_true, if_true]
    have hc : cleanResponse (some (if "board size ".toList ++ s' ++ " only please".toList = [] then "unspecified error".toList else "board size ".toList ++ s' ++ " only please".toList)) =
        "board size ".toList ++ s' ++ " only please".toList := by
      rcases h2 with ⟨_, rfl⟩ | ⟨_, rfl⟩ | ⟨_, rfl⟩ <;> decide +kernel
    rw [hc]
  · rw [(run_of_lookup C p hb).1, runCommand_call C p hb]
    have : cleanResponse (some (if "invalid arguments".toList = [] then "unspecified error".toList else "invalid arguments".toList)) = "invalid arguments".toList := by decide +kernel
    exact Prod.ext (by show (true, cleanResponse _, false) = _; rw [this]) rfl

/-- C105: besides these two and the proxy's own commands, it has the commands which the back end listed when the program was started, and they are sent on to it (C61). -/
theorem C105_others {C : Channel σ} {argv : List Str} {ctl ctl' : Ctl σ} {p : Proxy σ} {response : Str} (h : Reached C argv ctl p)
    (hl : ctl.doCommand C "list_commands".toList [] = (.ok response, ctl')) (c : Str) :
    (p.Has c ↔ IsListed response c ∨ c ∈ ownCommands ∨ c = "version".toList ∨ c = "boardsize".toList) ∧
    (p.Forwards c ↔ IsListed response c ∧ c ∉ ownCommands ∧ c ≠ "version".toList ∧ c ≠ "boardsize".toList) := by
  obtain ⟨a, rest, s, p0, ctl'', _, _, hb, h4, _⟩ := reached_table h
  obtain ⟨p1, hp1, _, hhas, hfwd⟩ := (C61_start C ctl).1 response ctl' hl
  rw [hb] at hp1
  cases hp1
  have hlook : p.handlers.lookup c = if c = "boardsize".toList then some (.custom (handleBoardsize s)) else if c = "version".toList then some (.custom handleVersion) else p0.handlers.lookup c := by
    rw [h4, List.lookup_cons, List.lookup_cons]
    by_cases h1 : c = "boardsize".toList
    · rw [if_pos h1, beq_iff_eq.2 h1]
    · rw [if_neg h1, beq_eq_false_iff_ne.2 h1]
      by_cases h2 : c = "version".toList
      · rw [if_pos h2, beq_iff_eq.2 h2]
      · rw [if_neg h2, beq_eq_false_iff_ne.2 h2]
  have k1 := hhas c
  have k2 := hfwd c
  unfold Proxy.Has Proxy.Forwards at *
  rw [hlook]
  by_cases h1 : c = "boardsize".toList
  · rw [if_pos h1]
    exact ⟨⟨fun _ => .inr (.inr (.inr h1)), fun _ => ⟨_, rfl⟩⟩, ⟨fun ⟨_, h5, h6⟩ => (by subst h6; cases h5), fun ⟨_, _, _, h⟩ => absurd h1 h⟩⟩
  · rw [if_neg h1]
    by_cases h2 : c = "version".toList
    · rw [if_pos h2]
      exact ⟨⟨fun _ => .inr (.inr (.inl h2)), fun _ => ⟨_, rfl⟩⟩, ⟨fun ⟨_, h5, h6⟩ => (by subst h6; cases h5), fun ⟨_, _, h, _⟩ => absurd h2 h⟩⟩
    · rw [if_neg h2, k1, k2]
      simp only [h1, h2, or_false, ne_eq, not_false_eq_true, and_true]

/-! ### A concrete case -/

/-- A back end which counts the commands it's sent. -/
def mogoExample (n : Nat) (command : Str) (_args : List Str) : (Bool × Str × Bool) × Nat :=
  if command = "list_commands".toList then ((false, "boardsize\ngenmove\nversion".toList, false), n + 1)
  else if command = "boardsize".toList then ((false, [], false), n + 1)
  else if command = "genmove".toList then ((false, strInt n, false), n + 1)
  else ((true, "unknown command".toList, false), n + 1)

/-- The proxy for it, started for 13x13. -/
def mogoStarted : Started (Internal Nat) := main (internalChannel mogoExample) ["--13".toList, "--x".toList] (Ctl.init ⟨0, [], false⟩ "mogo".toList)

/-- The replies to some commands. -/
def replies (C : Channel σ) : Proxy σ → List (String × List String) → List (Bool × Str × Bool)
  | _, [] => []
  | p, (c, args) :: rest => (p.run C c.toList (args.map String.toList)).1 :: replies C (p.run C c.toList (args.map String.toList)).2 rest

/-- C105: a proxy which is started. -/
theorem C105_witness : (match mogoStarted with
    | .running p => replies (internalChannel mogoExample) p [("version", []), ("boardsize", ["13"]), ("boardsize", ["19"]), ("genmove", ["b"]), ("list_commands", [])]
    | _ => []) =
    [(false, "2007 public release".toList, false), (false, [], false), (true, "board size 13 only please".toList, false), (false, "2".toList, false),
     (false, "boardsize\ngenmove\ngomill-passthrough\nknown_command\nlist_commands\nprotocol_version\nquit\nversion".toList, false)] := by decide +kernel

end Gomill.Gtp.Mogo
