import Verif.Model.Py
/-
Model of gomill/competition_schedulers.py.
-/
namespace Gomill.Sched
open Py

/-- competition_schedulers.py:13-29, the attributes of Simple_scheduler.
`outstanding` and `to_reissue` are Python sets; the counters are Python ints (unbounded, signed). -/
structure Simple where
  nextNew : Nat
  outstanding : List Nat
  toReissue : List Nat
  issued : Int
  fixed : Int
  deriving Repr, DecidableEq

/-- competition_schedulers.py:23-28 `__init__`. -/
def Simple.init : Simple := ⟨0, [], [], 0, 0⟩

/-- competition_schedulers.py:37-38 `__getstate__`: what a pickle keeps. -/
def Simple.getstate (s : Simple) : Nat × List Nat × List Nat :=
  (s.nextNew, s.outstanding, s.toReissue)

/-- competition_schedulers.py:40-43 `__setstate__`. -/
def Simple.setstate (st : Nat × List Nat × List Nat) : Simple :=
  let issued : Int := st.1 - st.2.2.length
  { nextNew := st.1, outstanding := st.2.1, toReissue := st.2.2,
    issued := issued, fixed := issued - st.2.1.length }

/-- competition_schedulers.py:46-61 `issue`.  `min` of the set is `List.min?`. -/
def Simple.issue (s : Simple) : Nat × Simple :=
  match s.toReissue.min? with
  | some result =>
    (result, { s with toReissue := setDiscard s.toReissue result
                      outstanding := setAdd s.outstanding result
                      issued := s.issued + 1 })
  | none =>
    let result := s.nextNew
    (result, { s with nextNew := s.nextNew + 1
                      outstanding := setAdd s.outstanding result
                      issued := s.issued + 1 })

/-- competition_schedulers.py:63-66 `fix`; `set.remove` raises KeyError for a token which isn't
outstanding, before anything is changed. -/
def Simple.fix (s : Simple) (token : Nat) : Except Exc Simple := do
  let outstanding ← setRemove s.outstanding token
  return { s with outstanding := outstanding, fixed := s.fixed + 1 }

/-- competition_schedulers.py:69-73 `rollback`. -/
def Simple.rollback (s : Simple) : Simple :=
  { s with issued := s.issued - s.outstanding.length
           toReissue := setUpdate s.toReissue s.outstanding
           outstanding := [] }

/-! ### Group_scheduler -/

/-- competition_schedulers.py:92-96: the attributes of Group_scheduler.  The three dicts
(`allocators`, `limits`, `priorities`) always have the same keys (they are set together in `set_groups`
and `__setstate__`), so they are modelled as one association list, whose order is the (arbitrary)
iteration order of the dict.  `limit` is `none` for None. -/
structure GEntry (κ : Type) where
  code : κ
  alloc : Simple
  limit : Option Int
  priority : Nat
  deriving Repr, DecidableEq

abbrev Group (κ : Type) := List (GEntry κ)

variable {κ : Type} [DecidableEq κ]

/-- dict lookup `self.allocators[group_code]`. -/
def Group.find (g : Group κ) (code : κ) : Option (GEntry κ) := List.find? (fun e => e.code = code) g

/-- dict store `d[k] = v` on an association list (overwrites, else appends). -/
def Group.store (g : Group κ) (e : GEntry κ) : Group κ :=
  if (g.find e.code).isSome then g.map (fun e' => if e'.code = e.code then e else e') else g ++ [e]

/-- competition_schedulers.py:126-129: the existing allocator for a code, or a new one. -/
def allocOf (old : Group κ) (code : κ) : Simple :=
  match old.find code with
  | some e => e.alloc
  | none => Simple.init

/-- competition_schedulers.py:112-134 `set_groups`, loop body at 125-131. -/
def Group.setGroupsAux (old : Group κ) : Nat → List (κ × Option Int) → Group κ → Group κ
  | _, [], acc => acc
  | priority, (code, limit) :: rest, acc =>
    setGroupsAux old (priority + 1) rest (Group.store acc ⟨code, allocOf old code, limit, priority⟩)

/-- competition_schedulers.py:112-134 `set_groups`. -/
def Group.setGroups (old : Group κ) (specs : List (κ × Option Int)) : Group κ :=
  Group.setGroupsAux old 0 specs []

/-- competition_schedulers.py:151: `limit is None or issue_count < limit`. -/
def GEntry.available (e : GEntry κ) : Bool :=
  match e.limit with
  | none => true
  | some l => e.alloc.issued < l

/-- Tuple comparison of (issue_count, priority, _), competition_schedulers.py:149,155.
Priorities of distinct groups are distinct, so the third component is never compared. -/
def GEntry.before (a b : GEntry κ) : Bool :=
  a.alloc.issued < b.alloc.issued || (a.alloc.issued == b.alloc.issued && a.priority < b.priority)

/-- competition_schedulers.py:155 `min(available)`: Python's `min` keeps the first smallest. -/
def Group.minAvail : List (GEntry κ) → Option (GEntry κ)
  | [] => none
  | e :: es => some (es.foldl (fun best e => if e.before best then e else best) e)

/-- Replace the allocator stored under `code` (mutation of the object held in the dict). -/
def Group.setAlloc (g : Group κ) (code : κ) (a : Simple) : Group κ :=
  g.map (fun e => if e.code = code then { e with alloc := a } else e)

/-- competition_schedulers.py:136-156 `issue`.  `none` is the return value (None, None). -/
def Group.issue (g : Group κ) : Option (κ × Nat) × Group κ :=
  match Group.minAvail (g.filter GEntry.available) with
  | none => (none, g)
  | some e =>
    let (n, a) := e.alloc.issue
    (some (e.code, n), Group.setAlloc g e.code a)

/-- competition_schedulers.py:158-160 `fix`; KeyError if the group or the token is unknown. -/
def Group.fix (g : Group κ) (code : κ) (n : Nat) : Except Exc (Group κ) :=
  match g.find code with
  | none => .error .keyError
  | some e => do
    let a ← e.alloc.fix n
    return Group.setAlloc g code a

/-- competition_schedulers.py:162-165 `rollback`. -/
def Group.rollback (g : Group κ) : Group κ :=
  g.map (fun e => { e with alloc := e.alloc.rollback })

/-- competition_schedulers.py:167-170 `nothing_issued_yet`. -/
def Group.nothingIssuedYet (g : Group κ) : Bool := g.all (fun e => e.alloc.issued == 0)

/-- competition_schedulers.py:172-180 `all_fixed`.  In Python 2 `allocator.fixed >= None` is True for
every int. -/
def Group.allFixed (g : Group κ) : Bool :=
  g.all (fun e => match e.limit with
    | none => true
    | some l => e.alloc.fixed ≥ l)

/-- competition_schedulers.py:98-99 and 109-110: pickling with the current format.  Each allocator is
pickled through its own `__getstate__`/`__setstate__`. -/
def Group.reload (g : Group κ) : Group κ :=
  g.map (fun e => { e with alloc := Simple.setstate e.alloc.getstate })

end Gomill.Sched
