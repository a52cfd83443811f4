import Verif.Model.GtpProxy
/-
Model of gomill_examples/mogo_wrapper.py: a proxy for one program.

Not modelled: KeyboardInterrupt, and starting the process (see Model/GtpProxy): the controller for it is given.
-/
namespace Gomill.Gtp.Mogo
open Py

variable {σ : Type}

/-- mogo_wrapper.py:14-16 `handle_version`. -/
def handleVersion (_args : List Str) (ctl : Ctl σ) : Outcome × Ctl σ := (.value (some "2007 public release".toList), ctl)

/-- mogo_wrapper.py:26-32 `handle_boardsize`. -/
def handleBoardsize (size : Str) (args : List Str) (ctl : Ctl σ) : Outcome × Ctl σ :=
  match args with
  | [] => (.gtpError "invalid arguments".toList, ctl)
  | a :: _ => if a ≠ size then (.gtpError ("board size ".toList ++ size ++ " only please".toList), ctl) else (.value none, ctl)

/-- What becomes of `main` before it runs the proxy. -/
inductive Started (σ : Type) where
  | exit (msg : Str)
  | traceback (e : PExc) (ctl : Ctl σ)
  | running (p : Proxy σ)

/-- mogo_wrapper.py:18-40 `main`, up to proxy.run(); `argv` are the arguments after the name of the program. -/
def main (C : Channel σ) (argv : List Str) (ctl : Ctl σ) : Started σ :=
  match argv with
  | [] => .exit "mogo_wrapper: first parameter must be --9, --13, or --19".toList
  | a :: _ =>
    if a ∉ ["--9", "--13", "--19"].map String.toList then .exit "mogo_wrapper: first parameter must be --9, --13, or --19".toList
    else
      let size := a.drop 2
      match setBackEnd C ctl with
      | (.error e, ctl) => .traceback e ctl
      | (.ok p, _) =>
        let p := (p.addCommand "version".toList (.custom handleVersion)).addCommand "boardsize".toList (.custom (handleBoardsize size))
        match passCommand C p.ctl "boardsize".toList [size] with
        | (.error e, ctl) => .traceback e ctl
        | (.ok _, ctl) => .running { p with ctl := ctl }

end Gomill.Gtp.Mogo
