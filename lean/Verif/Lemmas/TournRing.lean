import Verif.Model.TournRing
import Verif.Props.RingAny
/-
The run of a tournament (Model/Ringmaster) and the run of RingAny with a tournament are the same.
-/
namespace Gomill.Jobs
variable {σ₁ σ₂ J X₁ X₂ ε₁ ε₂ E₁ E₂ : Type}

/-! ### Runs with related sources -/

/-- The phase with its exception replaced. -/
def Phase.map (g : E₁ → E₂) : Phase E₁ → Phase E₂
  | .looping => .looping
  | .waiting => .waiting
  | .finishing x => .finishing (x.map g)
  | .returned x => .returned (x.map g)

/-- The call with its result replaced. -/
def Call.map (k : X₁ → X₂) : Call J X₁ → Call J X₂
  | .got j => .got j
  | .nothing => .nothing
  | .ran j x => .ran j (x.map k)
  | .response j x => .response j (k x)
  | .error j => .error j

/-- The step with its result and what the environment decides replaced. -/
def Step.map (k : X₁ → X₂) (v : ε₁ → ε₂) : Step X₁ ε₁ → Step X₂ ε₂
  | .mgr e => .mgr (v e)
  | .take i => .take i
  | .finishJob i x => .finishJob i (x.map k)

/-- The system with the source's state, the exceptions and the results replaced. -/
def Mp.map (f : σ₁ → σ₂) (g : E₁ → E₂) (k : X₁ → X₂) (m : Mp σ₁ J X₁ E₁) : Mp σ₂ J X₂ E₂ where
  src := f m.src
  number := m.number
  active := m.active
  jobQ := m.jobQ
  workers := m.workers
  respQ := m.respQ.map (fun p => (p.1, p.2.map k))
  phase := m.phase.map g
  log := m.log.map (Call.map k)

/-- The result of a call, with the source's state and the exceptions replaced. -/
def mapRes {α : Type} (f : σ₁ → σ₂) (g : E₁ → E₂) : Except E₁ α × σ₁ → Except E₂ α × σ₂
  | (.ok a, s) => (.ok a, f s)
  | (.error x, s) => (.error (g x), f s)

theorem mgr_map {S₁ : Source σ₁ J X₁ ε₁ E₁} {S₂ : Source σ₂ J X₂ ε₂ E₂} (f : σ₁ → σ₂) (g : E₁ → E₂) (k : X₁ → X₂) {e₁ : ε₁} {e₂ : ε₂} {m : Mp σ₁ J X₁ E₁}
    (hget : m.phase = .looping → S₂.getJob e₂ (f m.src) = mapRes f g (S₁.getJob e₁ m.src))
    (hresp : m.phase = .waiting → ∀ j x rest, m.respQ = (j, some x) :: rest → S₂.processResponse e₂ j (k x) (f m.src) = mapRes f g (S₁.processResponse e₁ j x m.src))
    (herr : m.phase = .waiting → ∀ j rest, m.respQ = (j, none) :: rest → S₂.processError e₂ j (f m.src) = mapRes f g (S₁.processError e₁ j m.src)) :
    (m.map f g k).mgr S₂ e₂ = (m.mgr S₁ e₁).map f g k := by
  unfold Mp.mgr
  rw [show (m.map f g k).phase = m.phase.map g from rfl]
  have hafter : ∀ m' : Mp σ₁ J X₁ E₁, (m'.map f g k).afterGet = m'.afterGet.map f g k := by
    intro m'
    unfold Mp.afterGet
    rw [show (m'.map f g k).active = m'.active from rfl]
    split <;> rfl
  have hend : ∀ (m' : Mp σ₁ J X₁ E₁) (r : Except E₁ Unit × σ₁), Mp.endOfLoop { (m'.map f g k) with src := (mapRes f g r).2 } (mapRes f g r).1 =
      (Mp.endOfLoop { m' with src := r.2 } r.1).map f g k := by
    rintro m' ⟨r | u, s⟩ <;> rfl
  cases hp : m.phase with
  | looping =>
    simp only [Phase.map]
    unfold Mp.topOfLoop
    rw [show (m.map f g k).active = m.active from rfl, show (m.map f g k).number = m.number from rfl]
    split
    · rw [show (m.map f g k).src = f m.src from rfl, hget hp]
      rcases S₁.getJob e₁ m.src with ⟨x | _ | j, s⟩
      · rfl
      · exact hafter { m with src := s, log := .nothing :: m.log }
      · rfl
    · exact hafter m
  | waiting =>
    simp only [Phase.map]
    unfold Mp.takeResponse
    rw [show (m.map f g k).respQ = m.respQ.map (fun p => (p.1, p.2.map k)) from rfl, show (m.map f g k).src = f m.src from rfl]
    rcases hq : m.respQ with _ | ⟨⟨j, _ | x⟩, rest⟩
    · rfl
    · simp only [List.map_cons, Option.map_none]
      rw [herr hp j rest hq]
      exact hend { m with respQ := rest, log := .error j :: m.log } _
    · simp only [List.map_cons, Option.map_some]
      rw [hresp hp j x rest hq]
      exact hend { m with respQ := rest, log := .response j x :: m.log } _
  | finishing x =>
    simp only [Phase.map]
    rw [show (m.map f g k).workers = m.workers from rfl]
    split <;> rfl
  | returned x => rfl

theorem take_map (f : σ₁ → σ₂) (g : E₁ → E₂) (k : X₁ → X₂) (m : Mp σ₁ J X₁ E₁) (i : Nat) : (m.map f g k).take i = (m.take i).map f g k := by
  unfold Mp.take Mp.map
  simp only
  rcases hw : m.workers[i]? with _ | _ | _ | _ <;> rcases hq : m.jobQ with _ | ⟨_ | _, _⟩ <;> simp only [hq]

theorem finishJob_map (f : σ₁ → σ₂) (g : E₁ → E₂) (k : X₁ → X₂) (m : Mp σ₁ J X₁ E₁) (i : Nat) (x : Option X₁) :
    (m.map f g k).finishJob i (x.map k) = (m.finishJob i x).map f g k := by
  unfold Mp.finishJob Mp.map
  simp only
  rcases m.workers[i]? with _ | _ | _ | _ <;> simp only [List.map_append, List.map_cons, List.map_nil, Call.map]

end Gomill.Jobs

namespace Gomill.Tourn
open Py Sched Jobs

/-- The state without the record. -/
def forget (s : Ring.RM State Job Response Saved CErr) : RM := ⟨s.comp, s.voidGameCount, s.inProgress, s.toReplay, s.errorCounts, s.maxGames, s.stopping, s.disk⟩

/-- The exception, as one of Model/Ringmaster's. -/
def plainExc : Ring.RExc CErr → RExc
  | .duplicateGameId => .duplicateGameId
  | .keyError => .py .keyError
  | .statusWrite => .statusWrite
  | .comp (.py e) => .py e
  | .comp (.load _) => .py .keyError

/-- What the environment decides, as RingAny has it. -/
def ringEnv (e : Env) : Ring.Env Unit := ⟨e.stop, e.pick, e.display, e.diskOk, (), ()⟩

variable {c : Comp}

theorem forget_newGame (e : Env) (s : Ring.RM State Job Response Saved CErr) :
    (forget s).newGame = mapRes forget plainExc (Ring.RM.newGame (competition c) (ringEnv e) s) := by
  unfold RM.newGame Ring.RM.newGame
  rw [show (forget s).t = s.comp from rfl, show (competition c).getGame (ringEnv e).call s.comp = liftRes s.comp.getGame from rfl]
  rcases s.comp.getGame with ⟨x | _ | j, t⟩
  · rfl
  · rfl
  · simp only [liftRes]
    rw [show (forget s).inProgress = s.inProgress from rfl, show (competition c).gameId = Job.gameId from rfl]
    split <;> rfl

theorem forget_nextJob (e : Env) (s : Ring.RM State Job Response Saved CErr) :
    (forget s).nextJob e = mapRes forget plainExc (Ring.RM.nextJob (competition c) (ringEnv e) s) := by
  unfold RM.nextJob Ring.RM.nextJob
  rw [show (forget s).toReplay = s.toReplay from rfl, show (ringEnv e).pick = e.pick from rfl]
  cases s.toReplay[e.pick % s.toReplay.length]? with
  | some j => rfl
  | none => exact forget_newGame e s

theorem forget_getJob1 (e : Env) (s : Ring.RM State Job Response Saved CErr) :
    (forget s).getJob1 e = mapRes forget plainExc (Ring.RM.getJob1 (competition c) (ringEnv e) s) := by
  unfold RM.getJob1 Ring.RM.getJob1
  rw [show (forget s).stopping = s.stopping from rfl, show (ringEnv e).stop = e.stop from rfl, show (forget s).maxGames = s.maxGames from rfl]
  split
  · rfl
  · split
    · rfl
    · cases hm : s.maxGames with
      | none => exact forget_nextJob e s
      | some k =>
        simp only
        split
        · simp only [mapRes, forget, Ring.RM.halt, hm]
        · exact forget_nextJob e { s with maxGames := some (k - 1) }

theorem forget_getJob (e : Env) (s : Ring.RM State Job Response Saved CErr) :
    RM.getJob e (forget s) = mapRes forget plainExc (Ring.RM.getJob (competition c) (ringEnv e) s) := by
  unfold RM.getJob Ring.RM.getJob
  rw [forget_getJob1 (c := c)]
  rcases Ring.RM.getJob1 (competition c) (ringEnv e) s with ⟨x | r, s1⟩
  · rfl
  · simp only [mapRes]
    unfold RM.updateDisplay Ring.RM.updateDisplay
    rw [show (ringEnv e).display = e.display from rfl]
    cases e.display <;> rfl

theorem pop_del (d : List Job) (g : Str) : Ring.popJob (competition c) d g = none ∧ delJob d g = .error .keyError ∨
    ∃ j, j ∈ d ∧ j.gameId = g ∧ Ring.popJob (competition c) d g = some (j, d.filter (fun j' => j'.gameId ≠ g)) ∧ delJob d g = .ok (d.filter (fun j' => j'.gameId ≠ g)) := by
  unfold Ring.popJob delJob
  rw [show (competition c).gameId = Job.gameId from rfl]
  cases h : d.find? (fun j => j.gameId = g) with
  | none =>
    left
    refine ⟨rfl, if_neg ?_⟩
    intro hm
    obtain ⟨j, hj, rfl⟩ := List.mem_map.mp hm
    have := List.find?_eq_none.mp h j hj
    simp at this
  | some j =>
    right
    have h1 := List.mem_of_find?_eq_some h
    have h2 := List.find?_some h
    simp only [decide_eq_true_eq] at h2
    exact ⟨j, h1, h2, rfl, if_pos (List.mem_map.mpr ⟨j, h1, h2⟩)⟩

theorem forget_writeStatus (e : Env) (s : Ring.RM State Job Response Saved CErr) :
    (forget s).writeStatus e = mapRes forget plainExc (Ring.RM.writeStatus (competition c) s (ringEnv e)) := by
  unfold RM.writeStatus Ring.RM.writeStatus
  rw [show (ringEnv e).diskOk = e.diskOk from rfl]
  cases e.diskOk <;> rfl

theorem forget_processResponse (e : Env) (j : Job) (x : Response) (s : Ring.RM State Job Response Saved CErr) :
    RM.processResponse e j x.outcome (forget s) = mapRes forget plainExc (Ring.RM.processResponse (competition c) (ringEnv e) j x s) := by
  unfold RM.processResponse Ring.RM.processResponse
  rw [show (forget s).t = s.comp from rfl, show (competition c).processResult (ringEnv e).call j x s.comp = liftRes (s.comp.processGameResult j (j.result x.outcome)) from rfl]
  rcases s.comp.processGameResult j (j.result x.outcome) with ⟨y | u, t⟩
  · rfl
  · simp only [liftRes]
    rw [show (forget s).inProgress = s.inProgress from rfl, show (competition c).gameId j = j.gameId from rfl]
    rcases pop_del (c := c) s.inProgress j.gameId with ⟨h1, h2⟩ | ⟨j', _, _, h1, h2⟩
    · rw [h1, h2]; rfl
    · rw [h1, h2]
      exact forget_writeStatus (c := c) e { s with comp := t, inProgress := s.inProgress.filter (fun j' => j'.gameId ≠ j.gameId), acts := .result j x t :: s.acts }

theorem errorCount_eq (l : List (Str × Nat)) (g : Str) : errorCount l g = Ring.errorCount l g := by
  unfold errorCount Ring.errorCount
  cases l.lookup g <;> rfl

/-- The counts of failures are never 0. -/
def Counted (s : Ring.RM State Job Response Saved CErr) : Prop := ∀ p ∈ s.errorCounts, p.2 ≠ 0

theorem filter_same {l : List (Str × Nat)} (h : ∀ p ∈ l, p.2 ≠ 0) {g : Str} (h0 : Ring.errorCount l g = 0) : l.filter (fun p => p.1 ≠ g) = l := by
  rw [List.filter_eq_self]
  intro p hp
  simp only [ne_eq, decide_eq_true_eq]
  intro hg
  unfold Ring.errorCount at h0
  have : l.lookup g ≠ none := by
    intro hn
    have := List.lookup_eq_none_iff.mp hn p hp
    rw [hg] at this
    simp at this
  cases hl : l.lookup g with
  | none => exact this hl
  | some n =>
    rw [hl] at h0
    obtain ⟨a, b, hab, _⟩ := List.lookup_eq_some_iff.mp hl
    have := h (g, n) (by rw [hab]; simp)
    exact this h0

theorem forget_processError (e : Env) (j : Job) (s : Ring.RM State Job Response Saved CErr) (hc : Counted s) (hj : j ∈ s.inProgress)
    (hu : ∀ j' ∈ s.inProgress, j'.gameId = j.gameId → j' = j) :
    RM.processError e j (forget s) = mapRes forget plainExc (Ring.RM.processError (competition c) (ringEnv e) j s) := by
  unfold RM.processError Ring.RM.processError
  rw [show (forget s).t = s.comp from rfl, show (competition c).processError (ringEnv e).call j (Ring.errorCount s.errorCounts ((competition c).gameId j)) s.comp =
    (.ok (s.comp.processGameError j).1, (s.comp.processGameError j).2) from rfl]
  simp only
  rw [show (competition c).gameId j = j.gameId from rfl]
  generalize s.comp.processGameError j = r
  rcases r with ⟨⟨stop, retry⟩, t⟩
  simp only
  unfold RM.bookError Ring.RM.bookError
  simp only
  rw [show (forget s).inProgress = s.inProgress from rfl, show (competition c).gameId = Job.gameId from rfl]
  rcases pop_del (c := c) s.inProgress j.gameId with ⟨h1, h2⟩ | ⟨j', hj', hid, h1, h2⟩
  · exfalso
    unfold delJob at h2
    rw [if_pos (List.mem_map.mpr ⟨j, hj, rfl⟩)] at h2
    cases h2
  · obtain rfl := hu j' hj' hid
    rw [h1, h2]
    simp only
    have hst : (forget s).stopping = s.stopping := rfl
    cases hr : (retry && !stop) with
    | true =>
      simp only [if_true]
      rw [show (forget s).errorCounts = s.errorCounts from rfl, errorCount_eq]
      unfold RM.writeStatus Ring.RM.writeStatus
      rw [show (ringEnv e).diskOk = e.diskOk from rfl]
      cases e.diskOk
      · rfl
      · simp only [if_true, hst]
        cases (stop && !s.stopping) <;> rfl
    | false =>
      simp only [Bool.false_eq_true, if_false]
      by_cases h0 : Ring.errorCount s.errorCounts j'.gameId = 0
      · rw [if_neg (by rw [h0]; simp)]
        rw [show (forget s).errorCounts = s.errorCounts from rfl, filter_same hc h0]
        unfold RM.writeStatus Ring.RM.writeStatus
        rw [show (ringEnv e).diskOk = e.diskOk from rfl]
        cases e.diskOk
        · rfl
        · simp only [if_true, hst]
          cases (stop && !s.stopping) <;> rfl
      · rw [if_pos h0]
        unfold RM.writeStatus Ring.RM.writeStatus
        rw [show (ringEnv e).diskOk = e.diskOk from rfl]
        cases e.diskOk
        · rfl
        · simp only [if_true, hst]
          cases (stop && !s.stopping) <;> rfl

/-! ### Whole runs -/

/-- What the environment decides, as Model/Ringmaster has it. -/
def plainEnv (e : Ring.Env Unit) : Env := ⟨e.stop, e.pick, e.display, e.diskOk⟩

theorem ringEnv_plain (e : Ring.Env Unit) : ringEnv (plainEnv e) = e := rfl

/-- A system of RingAny with a tournament, as one of Model/Ringmaster. -/
def plainMp (m : Mp (Ring.RM State Job Response Saved CErr) Job Response (Ring.RExc CErr)) : Mp RM Job Outcome RExc :=
  m.map forget plainExc Response.outcome

/-- A step of RingAny's, as one of Model/Ringmaster. -/
def plainStep : Step Response (Ring.Env Unit) → Step Outcome Env := Step.map Response.outcome plainEnv

theorem counted_getJob {e : Ring.Env Unit} {s s' : Ring.RM State Job Response Saved CErr} {r : Except (Ring.RExc CErr) (Option Job)} (h : Counted s)
    (hg : Ring.RM.getJob (competition c) e s = (r, s')) : Counted s' := by
  have hup : ∀ {s s' : Ring.RM State Job Response Saved CErr} {r : Except (Ring.RExc CErr) Unit}, Counted s →
      Ring.RM.updateDisplay (competition c) s e.display e.report = (r, s') → Counted s' := by
    intro s s' r hs hu
    unfold Ring.RM.updateDisplay at hu
    split at hu
    · rcases hr : (competition c).screenReport e.report s.comp with ⟨x | _, t⟩ <;> rw [hr] at hu <;> obtain ⟨_, rfl⟩ := Prod.mk.inj hu <;> exact hs
    · obtain ⟨_, rfl⟩ := Prod.mk.inj hu; exact hs
  have hnew : ∀ {s s' : Ring.RM State Job Response Saved CErr} {r : Except (Ring.RExc CErr) (Option Job)}, Counted s →
      Ring.RM.nextJob (competition c) e s = (r, s') → Counted s' := by
    intro s s' r hs hu
    unfold Ring.RM.nextJob at hu
    cases hp : s.toReplay[e.pick % s.toReplay.length]? with
    | some j => rw [hp] at hu; obtain ⟨_, rfl⟩ := Prod.mk.inj hu; exact hs
    | none =>
      rw [hp] at hu
      simp only at hu
      unfold Ring.RM.newGame at hu
      rcases hg : (competition c).getGame e.call s.comp with ⟨x | _ | j, t⟩ <;> rw [hg] at hu <;> simp only at hu
      · obtain ⟨_, rfl⟩ := Prod.mk.inj hu; exact hs
      · obtain ⟨_, rfl⟩ := Prod.mk.inj hu; exact hs
      · split at hu <;> obtain ⟨_, rfl⟩ := Prod.mk.inj hu <;> exact hs
  have h1 : ∀ {s s' : Ring.RM State Job Response Saved CErr} {r : Except (Ring.RExc CErr) (Option Job)}, Counted s →
      Ring.RM.getJob1 (competition c) e s = (r, s') → Counted s' := by
    intro s s' r hs hu
    unfold Ring.RM.getJob1 at hu
    split at hu
    · obtain ⟨_, rfl⟩ := Prod.mk.inj hu; exact hs
    · split at hu
      · obtain ⟨_, rfl⟩ := Prod.mk.inj hu; exact hs
      · cases hm : s.maxGames with
        | none => rw [hm] at hu; exact hnew hs hu
        | some k =>
          rw [hm] at hu
          simp only at hu
          split at hu
          · obtain ⟨_, rfl⟩ := Prod.mk.inj hu; exact hs
          · exact hnew (s := { s with maxGames := some (k - 1) }) hs hu
  unfold Ring.RM.getJob at hg
  rcases hr : Ring.RM.getJob1 (competition c) e s with ⟨x | r1, s1⟩ <;> rw [hr] at hg <;> simp only at hg
  · obtain ⟨_, rfl⟩ := Prod.mk.inj hg; exact h1 h hr
  · rcases hu : Ring.RM.updateDisplay (competition c) s1 e.display e.report with ⟨x | u, s2⟩ <;> rw [hu] at hg <;> simp only at hg <;>
      obtain ⟨_, rfl⟩ := Prod.mk.inj hg <;> exact hup (h1 h hr) hu

theorem counted_write {e : Ring.Env Unit} {s s' : Ring.RM State Job Response Saved CErr} {r : Except (Ring.RExc CErr) Unit} (h : Counted s)
    (hg : s.writeStatus (competition c) e = (r, s')) : Counted s' := by
  unfold Ring.RM.writeStatus at hg
  split at hg <;> obtain ⟨_, rfl⟩ := Prod.mk.inj hg <;> exact h

theorem counted_response {e : Ring.Env Unit} {j : Job} {x : Response} {s s' : Ring.RM State Job Response Saved CErr} {r : Except (Ring.RExc CErr) Unit} (h : Counted s)
    (hg : Ring.RM.processResponse (competition c) e j x s = (r, s')) : Counted s' := by
  unfold Ring.RM.processResponse at hg
  rcases hr : (competition c).processResult e.call j x s.comp with ⟨y | u, t⟩ <;> rw [hr] at hg <;> simp only at hg
  · obtain ⟨_, rfl⟩ := Prod.mk.inj hg; exact h
  · rcases hp : Ring.popJob (competition c) s.inProgress ((competition c).gameId j) with _ | ⟨j', d⟩ <;> rw [hp] at hg <;> simp only at hg
    · obtain ⟨_, rfl⟩ := Prod.mk.inj hg; exact h
    · exact counted_write (s := { s with comp := t, inProgress := d, acts := .result j x t :: s.acts }) h hg

theorem counted_error {e : Ring.Env Unit} {j : Job} {s s' : Ring.RM State Job Response Saved CErr} {r : Except (Ring.RExc CErr) Unit} (h : Counted s)
    (hg : Ring.RM.processError (competition c) e j s = (r, s')) : Counted s' := by
  have hbook : ∀ {s s' : Ring.RM State Job Response Saved CErr} {n : Nat} {b : Bool}, Counted s → s.bookError (competition c) j n b = some s' → Counted s' := by
    intro s s' n b hs hb
    have hf : ∀ p ∈ s.errorCounts.filter (fun p => p.1 ≠ (competition c).gameId j), p.2 ≠ 0 := fun p hp => hs p (List.mem_filter.mp hp).1
    unfold Ring.RM.bookError at hb
    rcases hp : Ring.popJob (competition c) s.inProgress ((competition c).gameId j) with _ | ⟨j', d⟩ <;> rw [hp] at hb <;> simp only at hb
    · cases hb
    · split at hb
      · obtain rfl := Option.some.inj hb
        intro p hp
        rcases List.mem_cons.mp hp with rfl | hp
        · exact Nat.succ_ne_zero _
        · exact hf p hp
      · split at hb <;> obtain rfl := Option.some.inj hb
        · exact hf
        · exact hs
  unfold Ring.RM.processError at hg
  rcases hr : (competition c).processError e.call j (Ring.errorCount s.errorCounts ((competition c).gameId j)) s.comp with ⟨y | ⟨stop, retry⟩, t⟩ <;>
    rw [hr] at hg <;> simp only at hg
  · obtain ⟨_, rfl⟩ := Prod.mk.inj hg; exact h
  · rcases hb : Ring.RM.bookError (competition c) { s with comp := t, voidGameCount := s.voidGameCount + 1, acts := .failed j (Ring.errorCount s.errorCounts ((competition c).gameId j)) stop retry t :: s.acts }
      j (Ring.errorCount s.errorCounts ((competition c).gameId j)) (retry && !stop) with _ | s1 <;> rw [hb] at hg <;> simp only at hg
    · obtain ⟨_, rfl⟩ := Prod.mk.inj hg; exact h
    · have h1 : Counted s1 := hbook (s := { s with comp := t, voidGameCount := s.voidGameCount + 1, acts := .failed j (Ring.errorCount s.errorCounts ((competition c).gameId j)) stop retry t :: s.acts }) h hb
      rcases hw : s1.writeStatus (competition c) e with ⟨x | u, s2⟩ <;> rw [hw] at hg <;> simp only at hg
      · obtain ⟨_, rfl⟩ := Prod.mk.inj hg; exact counted_write h1 hw
      · have h2 := counted_write h1 hw
        obtain ⟨_, rfl⟩ := Prod.mk.inj hg
        split
        · exact h2
        · exact h2

theorem counted_step {m : Mp (Ring.RM State Job Response Saved CErr) Job Response (Ring.RExc CErr)} (h : Counted m.src) (st : Step Response (Ring.Env Unit)) :
    Counted (m.step (Ring.source (competition c)) st).src := by
  cases st with
  | take k => show Counted (m.take k).src; rw [(take_src m k).1]; exact h
  | finishJob k x => show Counted (m.finishJob k x).src; rw [(finishJob_src m k x).1]; exact h
  | mgr e =>
    show Counted (m.mgr (Ring.source (competition c)) e).src
    have hafter : ∀ m' : Mp (Ring.RM State Job Response Saved CErr) Job Response (Ring.RExc CErr), m'.afterGet.src = m'.src := by
      intro m'; unfold Mp.afterGet; split <;> rfl
    have hend : ∀ (m' : Mp (Ring.RM State Job Response Saved CErr) Job Response (Ring.RExc CErr)) r, (m'.endOfLoop r).src = m'.src := by
      rintro m' (x | u) <;> rfl
    unfold Mp.mgr
    cases m.phase with
    | looping =>
      simp only
      unfold Mp.topOfLoop
      split
      · rcases hg : (Ring.source (competition c)).getJob e m.src with ⟨x | _ | j, s⟩
        · exact counted_getJob h hg
        · simp only; rw [hafter]; exact counted_getJob h hg
        · exact counted_getJob h hg
      · rw [hafter]; exact h
    | waiting =>
      simp only
      unfold Mp.takeResponse
      rcases m.respQ with _ | ⟨⟨j, _ | x⟩, rest⟩
      · exact h
      · simp only
        rw [hend]
        exact counted_error h rfl
      · simp only
        rw [hend]
        exact counted_response h rfl
    | finishing x =>
      simp only
      split <;> exact h
    | returned x => exact h

theorem plain_step {v0 : Nat} {d0 : Option (Nat × Saved)} {mg : Option Int} {m : Mp (Ring.RM State Job Response Saved CErr) Job Response (Ring.RExc CErr)}
    (hk : Kept (Ring.RInv (competition c) v0 d0 mg) (Ring.QInv (competition c) v0 d0 mg) (Ring.AtEnd (competition c)) m) (hc : Counted m.src)
    (st : Step Response (Ring.Env Unit)) : plainMp (m.step (Ring.source (competition c)) st) = (plainMp m).step source (plainStep st) := by
  cases st with
  | take k => exact (take_map _ _ _ _ _).symm
  | finishJob k x => exact (finishJob_map _ _ _ _ _ _).symm
  | mgr e =>
    refine (mgr_map (S₁ := Ring.source (competition c)) (S₂ := source) forget plainExc Response.outcome (e₁ := e) (e₂ := plainEnv e) ?_ ?_ ?_).symm
    · intro _
      exact forget_getJob (c := c) (plainEnv e) m.src
    · intro _ j x rest _
      exact forget_processResponse (c := c) (plainEnv e) j x m.src
    · intro hp j rest hq
      have hr := hk.fine (by rw [hp]; trivial)
      have hj : j ∈ m.src.inProgress := by
        refine hr.flight.mem_iff.mp ?_
        unfold Mp.inFlight
        rw [hq]
        simp
      have hn : (m.src.inProgress.map Job.gameId).Nodup := by
        have := hr.nodup
        rw [List.map_append] at this
        exact (List.nodup_append.mp this).1
      refine forget_processError (c := c) (plainEnv e) j m.src hc hj ?_
      intro j' hj' hid
      have h1 := Ring.find_mem hn hj
      have h2 := Ring.find_mem hn hj'
      rw [hid, h1] at h2
      exact (Option.some.inj h2).symm

theorem plain_run {v0 : Nat} {d0 : Option (Nat × Saved)} {mg : Option Int} (steps : List (Step Response (Ring.Env Unit))) :
    ∀ {m : Mp (Ring.RM State Job Response Saved CErr) Job Response (Ring.RExc CErr)},
    Kept (Ring.RInv (competition c) v0 d0 mg) (Ring.QInv (competition c) v0 d0 mg) (Ring.AtEnd (competition c)) m → Counted m.src →
    plainMp (m.run (Ring.source (competition c)) steps) = (plainMp m).run source (steps.map plainStep) := by
  induction steps with
  | nil => intro m _ _; rfl
  | cons st l ih =>
    intro m hk hc
    have h1 := ih (kept_step (Ring.keeps (competition c) v0 d0 mg) hk st) (counted_step (c := c) hc st)
    have h2 := plain_step hk hc st
    show plainMp ((m.step (Ring.source (competition c)) st).run (Ring.source (competition c)) l) = ((plainMp m).step source (plainStep st)).run source (l.map plainStep)
    rw [h1, h2]

theorem plain_start (mg : Option Int) (e : Ring.Env Unit) (d : Option (Nat × Saved)) :
    (Ring.RM.start (competition c) mg e d).map forget = (RM.start c mg e.display d).toOption := by
  unfold Ring.RM.start RM.start Ring.RM.updateDisplay RM.updateDisplay
  rcases d with _ | ⟨v, saved⟩
  · cases e.display <;> rfl
  · simp only
    rw [show (competition c).load e.call saved = (match State.load c saved with | .ok t => .ok t | .error x => .error (.load x)) from rfl]
    cases State.load c saved with
    | error x => rfl
    | ok t => cases e.display <;> rfl

end Gomill.Tourn
