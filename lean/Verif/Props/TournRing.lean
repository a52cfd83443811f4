import Verif.Lemmas.TournRing
import Verif.Spec.TournRing
import Verif.Props.RingScreen
import Verif.Props.Ringmaster
/-
C97: tournaments as competitions run by the ringmaster.
-/
namespace Gomill.Tourn
open Py Sched Jobs
variable {c : Comp}

/-- The world of RingAny, as one of Model/Ringmaster. -/
def plainWorld : Ring.World State Job Response Saved CErr → World
  | .down d => .down d
  | .up m => .up (plainMp m)

theorem world_same {ctrl : Control} {c : Comp} (hc : ctrl.initialise = .ok c) (events : List (Ring.Event Response Unit)) :
    plainWorld (Ring.World.after (competition c) events) = World.after (events.map (plainEvent ctrl)) ∧
    ∀ m, Ring.World.after (competition c) events = .up m → Counted m.src ∧ ∃ v0 d0 mg,
      Kept (Ring.RInv (competition c) v0 d0 mg) (Ring.QInv (competition c) v0 d0 mg) (Ring.AtEnd (competition c)) m := by
  induction events using List.reverseRecOn with
  | nil => exact ⟨rfl, fun m hm => by cases hm⟩
  | append_singleton events ev ih =>
    have h1 : Ring.World.after (competition c) (events ++ [ev]) = Ring.World.step (competition c) (Ring.World.after (competition c) events) ev := by
      unfold Ring.World.after; rw [List.foldl_append]; rfl
    have h2 : World.after ((events ++ [ev]).map (plainEvent ctrl)) = (World.after (events.map (plainEvent ctrl))).step (plainEvent ctrl ev) := by
      unfold World.after; rw [List.map_append, List.foldl_append]; rfl
    rw [h1, h2, ← ih.1]
    have hup := ih.2
    cases hw : Ring.World.after (competition c) events with
    | down d =>
      cases ev with
      | start mg e w =>
        simp only [Ring.World.step, plainWorld, plainEvent, World.step, hc]
        have hp := plain_start (c := c) mg e d
        cases hs : Ring.RM.start (competition c) mg e d with
        | none =>
          rw [hs] at hp
          cases ht : RM.start c mg e.display d with
          | error x => exact ⟨rfl, fun m hm => by cases hm⟩
          | ok s => rw [ht] at hp; cases hp
        | some s =>
          rw [hs] at hp
          cases ht : RM.start c mg e.display d with
          | error x => rw [ht] at hp; cases hp
          | ok s' =>
            rw [ht] at hp
            obtain rfl : forget s = s' := Option.some.inj hp
            simp only
            by_cases hb : 1 ≤ w ∧ w < 1024
            · rw [if_pos hb, if_pos hb]
              refine ⟨rfl, fun m hm => ?_⟩
              injection hm with hm
              subst hm
              obtain ⟨t, t0, hst, _⟩ := Ring.start_facts (competition c) hs
              refine ⟨?_, _, _, _, Ring.start_kept (competition c) hs hb.1⟩
              show Counted s
              rw [hst]
              intro p hp; cases hp
            · rw [if_neg hb, if_neg hb]
              exact ⟨rfl, fun m hm => by cases hm⟩
      | step s => rcases s with e | i | ⟨i, x⟩ <;> exact ⟨rfl, fun m hm => by cases hm⟩
      | down => exact ⟨rfl, fun m hm => by cases hm⟩
    | up m =>
      obtain ⟨hcnt, v0, d0, mg0, hk⟩ := hup m hw
      cases ev with
      | start mg e w =>
        refine ⟨rfl, fun m' hm => ?_⟩
        injection hm with hm
        subst hm
        exact ⟨hcnt, v0, d0, mg0, hk⟩
      | step st =>
        have hst := plain_step (c := c) hk hcnt st
        refine ⟨?_, fun m' hm => ?_⟩
        · show World.up (plainMp (m.step (Ring.source (competition c)) st)) = _
          rw [hst]
          rcases st with e | i | ⟨i, x⟩ <;> rfl
        · injection hm with hm
          subst hm
          exact ⟨counted_step (c := c) hcnt st, v0, d0, mg0, kept_step (Ring.keeps (competition c) v0 d0 mg0) hk st⟩
      | down => exact ⟨rfl, fun m' hm => by cases hm⟩

theorem gotJobs_map {X₁ X₂ : Type} (k : X₁ → X₂) (log : List (Call Job X₁)) : gotJobs (log.map (Call.map k)) = gotJobs log := by
  induction log with
  | nil => rfl
  | cons a l ih => cases a <;> simp_all [gotJobs, Call.map]

theorem fine_map {E₁ E₂ : Type} (g : E₁ → E₂) (p : Phase E₁) : (p.map g).fine ↔ p.fine := by
  rcases p with _ | _ | ⟨_ | x⟩ | ⟨_ | x⟩ <;> simp [Phase.map, Phase.fine]

theorem returned_map {E₁ E₂ : Type} (g : E₁ → E₂) (p : Phase E₁) : p.map g = .returned none ↔ p = .returned none := by
  rcases p with _ | _ | ⟨_ | x⟩ | ⟨_ | x⟩ <;> simp [Phase.map]

/-- C97: a tournament is a competition in the sense of C88: the system of C36-C39, with the same control file in all its runs, is the one of C88-C90 with the tournament
as its competition.  The status file is the same, and so are the state of the tournament, the games in progress and to be retried, the queues, the workers and the calls,
whatever happens. -/
theorem C97_same_world {ctrl : Control} {c : Comp} (hc : ctrl.initialise = .ok c) (events : List (Ring.Event Response Unit)) :
    (World.after (events.map (plainEvent ctrl))).disk = (Ring.World.after (competition c) events).disk ∧
    (∀ d, World.after (events.map (plainEvent ctrl)) = .down d ↔ Ring.World.after (competition c) events = .down d) ∧
    ∀ m, Ring.World.after (competition c) events = .up m → ∃ m', World.after (events.map (plainEvent ctrl)) = .up m' ∧
      m'.src.t = m.src.comp ∧ m'.src.voidGameCount = m.src.voidGameCount ∧ m'.src.inProgress = m.src.inProgress ∧ m'.src.toReplay = m.src.toReplay ∧
      m'.src.errorCounts = m.src.errorCounts ∧ m'.src.maxGames = m.src.maxGames ∧ m'.src.stopping = m.src.stopping ∧
      m'.number = m.number ∧ m'.active = m.active ∧ m'.jobQ = m.jobQ ∧ m'.workers = m.workers ∧ gotJobs m'.log = gotJobs m.log ∧
      (m'.phase.fine ↔ m.phase.fine) ∧ (m'.phase = .returned none ↔ m.phase = .returned none) := by
  have h := (world_same hc events).1
  rw [← h]
  cases hw : Ring.World.after (competition c) events with
  | down d =>
    refine ⟨rfl, fun d' => ?_, fun m hm => by cases hm⟩
    constructor <;> intro hd <;> injection hd with hd <;> rw [hd]
    rfl
  | up m =>
    refine ⟨rfl, fun d' => ⟨(fun hd => by cases hd), (fun hd => by cases hd)⟩, fun m' hm => ?_⟩
    injection hm with hm
    subst hm
    refine ⟨plainMp m, rfl, rfl, rfl, rfl, rfl, rfl, rfl, rfl, rfl, rfl, rfl, rfl, ?_, ?_, ?_⟩
    · exact gotJobs_map _ _
    · exact fine_map _ _
    · exact returned_map _ _

/-- C97: and everything that can happen to a tournament, so long as its control file stays the same, is covered. -/
theorem C97_every_world {ctrl : Control} (events : List Event) (h : AllFrom ctrl events) :
    ∃ events' : List (Ring.Event Response Unit), events = events'.map (plainEvent ctrl) := by
  induction events with
  | nil => exact ⟨[], rfl⟩
  | cons ev l ih =>
    obtain ⟨l', rfl⟩ := ih (fun c mg display w hm => h c mg display w (List.mem_cons_of_mem _ hm))
    cases ev with
    | start c mg display w =>
      obtain rfl := h c mg display w List.mem_cons_self
      exact ⟨.start mg ⟨false, 0, display, true, (), ()⟩ w :: l', rfl⟩
    | step s =>
      rcases s with e | i | ⟨i, x⟩
      · exact ⟨.step (.mgr ⟨e.stop, e.pick, e.display, e.diskOk, (), ()⟩) :: l', rfl⟩
      · exact ⟨.step (.take i) :: l', rfl⟩
      · refine ⟨.step (.finishJob i (x.map (fun o => ⟨o, [], []⟩))) :: l', ?_⟩
        cases x <;> rfl
    | down => exact ⟨.down :: l', rfl⟩

/-! ### The results, the history file and the status file -/

/-- What holds so long as nothing has raised: `base` is what was in the status file. -/
structure Agree (base : Str → List GameResult) (s : Ring.RM State Job Response Saved CErr) : Prop where
  pickles : Pickles s.comp.results
  now : ∀ k, s.comp.results.get k = base k ++ acceptedFor k (accepted s.acts)
  disk : ∀ k, savedIn s.disk k = base k ++ acceptedFor k (accepted s.acts)

/-- What holds always. -/
structure AgreeAlways (base : Str → List GameResult) (s : Ring.RM State Job Response Saved CErr) : Prop where
  now : ∀ k, s.comp.results.get k = base k ++ acceptedFor k (accepted s.acts)
  disk : (∀ k, savedIn s.disk k = base k ++ acceptedFor k (accepted s.acts)) ∨ (∀ k, savedIn s.disk k = base k ++ acceptedFor k (accepted s.acts).dropLast)

theorem Agree.always {base : Str → List GameResult} {s : Ring.RM State Job Response Saved CErr} (h : Agree base s) : AgreeAlways base s := ⟨h.now, .inl h.disk⟩

/-- An act which isn't a result. -/
def NoResult : Ring.Act State Job Response CErr → Prop
  | .result .. => False
  | _ => True

theorem accepted_skip {a : Ring.Act State Job Response CErr} (h : NoResult a) (l : List (Ring.Act State Job Response CErr)) : accepted (a :: l) = accepted l := by
  cases a <;> first | rfl | exact h.elim

theorem accepted_result (j : Job) (x : Response) (t : State) (l : List (Ring.Act State Job Response CErr)) :
    accepted (.result j x t :: l) = accepted l ++ [(j, x)] := by
  unfold accepted; rw [List.filterMap_cons]; exact List.reverse_cons

theorem acceptedFor_snoc (k : Str) (l : List (Job × Response)) (j : Job) (x : Response) :
    acceptedFor k (l ++ [(j, x)]) = acceptedFor k l ++ (if k = j.matchupId then [j.result x.outcome] else []) := by
  unfold acceptedFor
  rw [List.filter_append, List.map_append, List.filter_cons]
  by_cases h : k = j.matchupId
  · rw [if_pos h, if_pos (by simp [h])]; rfl
  · rw [if_neg h, if_neg (by simp; exact fun hh => h hh.symm)]; rfl

/-- Two states which differ in nothing that matters here. -/
theorem Agree.move {base : Str → List GameResult} {s s' : Ring.RM State Job Response Saved CErr} (h : Agree base s) (hp : Pickles s'.comp.results)
    (hg : ∀ k, s'.comp.results.get k = s.comp.results.get k) (ha : accepted s'.acts = accepted s.acts) (hd : s'.disk = s.disk) : Agree base s' :=
  ⟨hp, fun k => by rw [hg, ha]; exact h.now k, fun k => by rw [hd, ha]; exact h.disk k⟩

theorem agree_display {base : Str → List GameResult} {e : Ring.Env Unit} {s s' : Ring.RM State Job Response Saved CErr} {r : Except (Ring.RExc CErr) Unit}
    (h : Agree base s) (hu : Ring.RM.updateDisplay (competition c) s e.display e.report = (r, s')) : Agree base s' := by
  unfold Ring.RM.updateDisplay at hu
  split at hu
  · obtain ⟨_, rfl⟩ := Prod.mk.inj hu
    obtain ⟨h1, h2, _⟩ := touchAll_facts s.comp.comp.matchups s.comp.results h.pickles
    exact h.move h2 h1 rfl rfl
  · obtain ⟨_, rfl⟩ := Prod.mk.inj hu
    exact h

theorem getGame_results (t : State) : t.getGame.2.results = t.results := by
  unfold State.getGame
  rcases t.scheduler.issue with ⟨_ | ⟨id, n⟩, g⟩
  · rfl
  · simp only
    cases t.findMatchup id <;> rfl

theorem agree_getJob {base : Str → List GameResult} {e : Ring.Env Unit} {s s' : Ring.RM State Job Response Saved CErr} {r : Except (Ring.RExc CErr) (Option Job)}
    (h : Agree base s) (hg : Ring.RM.getJob (competition c) e s = (r, s')) : Agree base s' := by
  have hnew : ∀ {s s' : Ring.RM State Job Response Saved CErr} {r : Except (Ring.RExc CErr) (Option Job)}, Agree base s →
      Ring.RM.nextJob (competition c) e s = (r, s') → Agree base s' := by
    intro s s' r hs hu
    unfold Ring.RM.nextJob at hu
    cases hp : s.toReplay[e.pick % s.toReplay.length]? with
    | some j => rw [hp] at hu; obtain ⟨_, rfl⟩ := Prod.mk.inj hu; exact hs.move hs.pickles (fun _ => rfl) rfl rfl
    | none =>
      rw [hp] at hu
      simp only at hu
      unfold Ring.RM.newGame at hu
      rw [show (competition c).getGame e.call s.comp = liftRes s.comp.getGame from rfl] at hu
      have hr := getGame_results s.comp
      rcases hg : s.comp.getGame with ⟨x | _ | j, t⟩ <;> rw [hg] at hu hr <;> simp only [liftRes] at hu <;> simp only at hr
      · obtain ⟨_, rfl⟩ := Prod.mk.inj hu; exact hs.move (by show Pickles t.results; rw [hr]; exact hs.pickles) (fun k => by show t.results.get k = _; rw [hr]) rfl rfl
      · obtain ⟨_, rfl⟩ := Prod.mk.inj hu; exact hs.move (by show Pickles t.results; rw [hr]; exact hs.pickles) (fun k => by show t.results.get k = _; rw [hr]) rfl rfl
      · split at hu <;> obtain ⟨_, rfl⟩ := Prod.mk.inj hu <;>
          exact hs.move (by show Pickles t.results; rw [hr]; exact hs.pickles) (fun k => by show t.results.get k = _; rw [hr]) rfl rfl
  have h1 : ∀ {s s' : Ring.RM State Job Response Saved CErr} {r : Except (Ring.RExc CErr) (Option Job)}, Agree base s →
      Ring.RM.getJob1 (competition c) e s = (r, s') → Agree base s' := by
    intro s s' r hs hu
    unfold Ring.RM.getJob1 at hu
    split at hu
    · obtain ⟨_, rfl⟩ := Prod.mk.inj hu; exact hs
    · split at hu
      · obtain ⟨_, rfl⟩ := Prod.mk.inj hu; exact hs.move hs.pickles (fun _ => rfl) rfl rfl
      · cases hm : s.maxGames with
        | none => rw [hm] at hu; exact hnew hs hu
        | some k =>
          rw [hm] at hu
          simp only at hu
          split at hu
          · obtain ⟨_, rfl⟩ := Prod.mk.inj hu; exact hs.move hs.pickles (fun _ => rfl) rfl rfl
          · exact hnew (s := { s with maxGames := some (k - 1) }) (hs.move hs.pickles (fun _ => rfl) rfl rfl) hu
  unfold Ring.RM.getJob at hg
  rcases hr : Ring.RM.getJob1 (competition c) e s with ⟨x | r1, s1⟩ <;> rw [hr] at hg <;> simp only at hg
  · obtain ⟨_, rfl⟩ := Prod.mk.inj hg; exact h1 h hr
  · rcases hu : Ring.RM.updateDisplay (competition c) s1 e.display e.report with ⟨x | u, s2⟩ <;> rw [hu] at hg <;> simp only at hg <;>
      obtain ⟨_, rfl⟩ := Prod.mk.inj hg <;> exact agree_display (h1 h hr) hu

theorem savedIn_save {t : State} (h : Pickles t.results) (v : Nat) (k : Str) : savedIn (some (v, t.save)) k = t.results.get k := by
  unfold savedIn
  simp only
  rw [loadResults_save h]

/-- The state after a result has been taken in, whatever becomes of the status file. -/
theorem agree_result {base : Str → List GameResult} {j : Job} {x : Response} {s : Ring.RM State Job Response Saved CErr} {t : State} {u : Unit} (h : Agree base s)
    (hr : s.comp.processGameResult j (j.result x.outcome) = (.ok u, t)) :
    Pickles t.results ∧ (∀ k, t.results.get k = base k ++ acceptedFor k (accepted (.result j x t :: s.acts))) ∧
    ∀ k, savedIn s.disk k = base k ++ acceptedFor k (accepted (.result j x t :: s.acts)).dropLast := by
  have hres : t.results = s.comp.results.append j.matchupId (j.result x.outcome) := by
    unfold State.processGameResult at hr
    simp only at hr
    cases hf : s.comp.scheduler.fix j.matchupId j.number with
    | error y => rw [hf] at hr; cases (Prod.mk.inj hr).1
    | ok g => rw [hf] at hr; rw [← (Prod.mk.inj hr).2]
  refine ⟨?_, fun k => ?_, fun k => ?_⟩
  · rw [hres]
    exact pickles_append h.pickles _ (suits_result j x.outcome).pickle
  · rw [hres, get_append, accepted_result, acceptedFor_snoc]
    by_cases hk : k = j.matchupId
    · subst hk
      rw [if_pos rfl, if_pos rfl, h.now, List.append_assoc]
    · rw [if_neg hk, if_neg hk, h.now, List.append_nil]
  · rw [accepted_result, List.dropLast_concat]
    exact h.disk k

theorem agree_response {base : Str → List GameResult} {e : Ring.Env Unit} {j : Job} {x : Response} {s s' : Ring.RM State Job Response Saved CErr}
    {r : Except (Ring.RExc CErr) Unit} (h : Agree base s) (hg : Ring.RM.processResponse (competition c) e j x s = (r, s')) :
    AgreeAlways base s' ∧ ∀ u, r = .ok u → Agree base s' := by
  unfold Ring.RM.processResponse at hg
  rw [show (competition c).processResult e.call j x s.comp = liftRes (s.comp.processGameResult j (j.result x.outcome)) from rfl] at hg
  rcases hr : s.comp.processGameResult j (j.result x.outcome) with ⟨y | u, t⟩ <;> rw [hr] at hg <;> simp only [liftRes] at hg
  · obtain ⟨rfl, rfl⟩ := Prod.mk.inj hg
    have hres : t.results = s.comp.results := by
      unfold State.processGameResult at hr
      simp only at hr
      cases hf : s.comp.scheduler.fix j.matchupId j.number with
      | error y => rw [hf] at hr; rw [← (Prod.mk.inj hr).2]
      | ok g => rw [hf] at hr; cases (Prod.mk.inj hr).1
    refine ⟨(h.move (s' := { s with comp := t, acts := .raised (.py y) :: s.acts }) ?_ (fun k => ?_) rfl rfl).always, nofun⟩
    · show Pickles t.results; rw [hres]; exact h.pickles
    · show t.results.get k = _; rw [hres]
  · obtain ⟨h1, h2, h3⟩ := agree_result h hr
    rcases hp : Ring.popJob (competition c) s.inProgress ((competition c).gameId j) with _ | ⟨j', d⟩ <;> rw [hp] at hg <;> simp only at hg
    · obtain ⟨rfl, rfl⟩ := Prod.mk.inj hg
      exact ⟨⟨h2, .inr h3⟩, nofun⟩
    · unfold Ring.RM.writeStatus at hg
      split at hg
      · obtain ⟨rfl, rfl⟩ := Prod.mk.inj hg
        have : Agree base { s with comp := t, inProgress := d, disk := some (s.voidGameCount, t.save), acts := .result j x t :: s.acts } :=
          ⟨h1, h2, fun k => by rw [← h2]; exact savedIn_save h1 s.voidGameCount k⟩
        exact ⟨this.always, fun _ _ => this⟩
      · obtain ⟨rfl, rfl⟩ := Prod.mk.inj hg
        exact ⟨⟨h2, .inr h3⟩, nofun⟩

theorem agree_error {base : Str → List GameResult} {e : Ring.Env Unit} {j : Job} {s s' : Ring.RM State Job Response Saved CErr}
    {r : Except (Ring.RExc CErr) Unit} (h : Agree base s) (hg : Ring.RM.processError (competition c) e j s = (r, s')) : Agree base s' := by
  have hres : (s.comp.processGameError j).2.results = s.comp.results := by
    unfold State.processGameError
    split <;> rfl
  unfold Ring.RM.processError at hg
  rw [show (competition c).processError e.call j (Ring.errorCount s.errorCounts ((competition c).gameId j)) s.comp =
    (.ok (s.comp.processGameError j).1, (s.comp.processGameError j).2) from rfl] at hg
  simp only at hg
  rcases hr : s.comp.processGameError j with ⟨⟨stop, retry⟩, t⟩
  rw [hr] at hg hres
  simp only at hg hres
  have h0 : ∀ {s1 : Ring.RM State Job Response Saved CErr} {a : Ring.Act State Job Response CErr}, NoResult a → s1.comp = t → s1.acts = a :: s.acts → s1.disk = s.disk → Agree base s1 := by
    intro s1 a ha hc hacts hd
    refine h.move ?_ (fun k => ?_) ?_ hd
    · rw [hc, hres]; exact h.pickles
    · rw [hc, hres]
    · rw [hacts]; exact accepted_skip ha _
  cases hb : Ring.RM.bookError (competition c) { s with comp := t, voidGameCount := s.voidGameCount + 1, acts := .failed j (Ring.errorCount s.errorCounts ((competition c).gameId j)) stop retry t :: s.acts }
      j (Ring.errorCount s.errorCounts ((competition c).gameId j)) (retry && !stop) with
  | none =>
    rw [hb] at hg
    obtain ⟨_, rfl⟩ := Prod.mk.inj hg
    exact h0 (a := .failed j (Ring.errorCount s.errorCounts ((competition c).gameId j)) stop retry t) trivial rfl rfl rfl
  | some s1 =>
    rw [hb] at hg
    obtain ⟨b1, _, b3, _, b5⟩ := Ring.Live.bookError_facts hb
    have h1 : Agree base s1 := h0 (a := .failed j (Ring.errorCount s.errorCounts ((competition c).gameId j)) stop retry t) trivial b3 b1 b5
    simp only at hg
    unfold Ring.RM.writeStatus at hg
    cases hd : e.diskOk with
    | false =>
      rw [hd] at hg
      simp only [Bool.false_eq_true, if_false] at hg
      obtain ⟨_, rfl⟩ := Prod.mk.inj hg
      exact h1
    | true =>
      rw [hd] at hg
      simp only [if_true] at hg
      have h2 : Agree base { s1 with disk := some (s1.voidGameCount, s1.comp.save) } :=
        ⟨h1.pickles, h1.now, fun k => by rw [← h1.now]; exact savedIn_save h1.pickles s1.voidGameCount k⟩
      obtain ⟨_, rfl⟩ := Prod.mk.inj hg
      split
      · exact h2.move h2.pickles (fun _ => rfl) rfl rfl
      · exact h2

theorem agree_keeps (base : Str → List GameResult) : Keeps (Ring.source (competition c)) (fun s _ => Agree base s) (AgreeAlways base) (fun _ => True) where
  perm h _ := h
  none h hg := agree_getJob h hg
  some h hg := agree_getJob h hg
  response h hg := (agree_response h hg).2 _ rfl
  error h hg := agree_error h hg
  always h := h.always
  getErr h hg := (agree_getJob h hg).always
  respErr h hg := (agree_response h hg).1
  errErr h hg := (agree_error h hg).always
  atEnd _ _ := trivial

/-! ### The history file -/

open Ring.Live in
/-- Nothing has been written to the history file, and no result accepted. -/
def Unchanged (d d' : Desk State Job Response Saved CErr) : Prop :=
  historyOf d'.trace = historyOf d.trace ∧ accepted d'.rm.acts = accepted d.rm.acts

section
open Ring.Live

theorem Unchanged.trans {d d' d'' : Desk State Job Response Saved CErr} (h : Unchanged d d') (h' : Unchanged d' d'') : Unchanged d d'' :=
  ⟨h'.1.trans h.1, h'.2.trans h.2⟩

theorem Unchanged.refl (d : Desk State Job Response Saved CErr) : Unchanged d d := ⟨rfl, rfl⟩

theorem historyOf_append (a b : List (Eff State Job Response Saved CErr)) : historyOf (a ++ b) = historyOf a ++ historyOf b := List.filterMap_append

/-- Nothing to do with the history file. -/
def NoHistory : Eff State Job Response Saved CErr → Prop
  | .history _ => False
  | _ => True

theorem historyOf_none {l : List (Eff State Job Response Saved CErr)} (h : ∀ a ∈ l, NoHistory a) : historyOf l = [] := by
  induction l with
  | nil => rfl
  | cons a l ih =>
    have h1 := ih (fun b hb => h b (List.mem_cons_of_mem _ hb))
    have h2 := h a List.mem_cons_self
    unfold historyOf at h1 ⊢
    rw [List.filterMap_cons]
    cases a <;> first | exact h1 | exact h2.elim

/-- `d'` is `d`, with more done that has nothing to do with the history file. -/
theorem unchanged_of {d d' : Desk State Job Response Saved CErr} (l : List (Eff State Job Response Saved CErr)) (ht : d'.trace = d.trace ++ l) (hl : ∀ a ∈ l, NoHistory a)
    (ha : accepted d'.rm.acts = accepted d.rm.acts) : Unchanged d d' := by
  refine ⟨?_, ha⟩
  rw [ht, historyOf_append, historyOf_none hl, List.append_nil]

theorem warned_noHistory (q : Bool) (s : Str) : ∀ a ∈ (warned q s : List (Eff State Job Response Saved CErr)), NoHistory a := by
  intro a ha
  unfold warned alarm at ha
  cases q <;> simp at ha <;> rcases ha with rfl | rfl | rfl <;> trivial

theorem unchanged_warn (d : Desk State Job Response Saved CErr) (s : Str) : Unchanged d (d.warn s) :=
  unchanged_of _ (warn_trace d s) (warned_noHistory _ _) (by rw [(warn_same d s).rm])

theorem unchanged_display {report : State → Str} {d d' : Desk State Job Response Saved CErr} {e : ScreenEnv} {r : Except (DExc CErr) Unit}
    (h : d.updateDisplay (competition c) (texts report) e () = (r, d')) : Unchanged d d' := by
  have hd := display_spec _ _ _ h
  cases hq : d.screen.quiet with
  | true => rw [(hd.isQuiet hq).2]; exact Unchanged.refl d
  | false =>
    rcases hd.cases hq with ⟨x, t, h1, h2, h3, h4⟩ | ⟨u, t, B, h1, h2, h3, h4, _⟩
    · exact unchanged_of _ h4 (by intro a ha; rcases List.mem_singleton.mp ha with rfl; trivial) (by rw [h3]; rfl)
    · refine unchanged_of _ h3 (fun a ha => ?_) (by rw [h2])
      have := h4 a ha
      cases a <;> first | trivial | exact this.elim

theorem unchanged_nextUnlessMax {report : State → Str} {d d' : Desk State Job Response Saved CErr} {e : LEnv Unit} {r : Except (DExc CErr) (Option Job)}
    (h : d.nextUnlessMax (competition c) (texts report) e = (r, d')) : Unchanged d d' := by
  have hnext : ∀ {d d' : Desk State Job Response Saved CErr} {r : Except (DExc CErr) (Option Job)}, d.nextJob (competition c) (texts report) e = (r, d') → Unchanged d d' := by
    intro d d' r h
    unfold Desk.nextJob at h
    cases hp : d.rm.toReplay[e.pick % d.rm.toReplay.length]? with
    | some j =>
      rw [hp] at h
      obtain ⟨_, rfl⟩ := Prod.mk.inj h
      exact unchanged_of _ rfl (by intro a ha; simp at ha; rcases ha with rfl | rfl <;> trivial) rfl
    | none =>
      rw [hp] at h
      simp only at h
      unfold Desk.newGame at h
      rw [show (texts report).gameLog e.call d.rm.comp = [] from rfl] at h
      rcases hg : (competition c).getGame e.call d.rm.comp with ⟨x | _ | j, t⟩ <;> rw [hg] at h <;> simp only at h
      · obtain ⟨_, rfl⟩ := Prod.mk.inj h
        exact unchanged_of [.act (.raised x)] rfl (by intro a ha; rcases List.mem_singleton.mp ha with rfl; trivial) rfl
      · obtain ⟨_, rfl⟩ := Prod.mk.inj h
        exact unchanged_of [.act .noGame] rfl (by intro a ha; rcases List.mem_singleton.mp ha with rfl; trivial) rfl
      · split at h
        · obtain ⟨_, rfl⟩ := Prod.mk.inj h
          exact unchanged_of [.act (.clash j)] rfl (by intro a ha; rcases List.mem_singleton.mp ha with rfl; trivial) rfl
        · obtain ⟨_, rfl⟩ := Prod.mk.inj h
          exact unchanged_of [.act (.offered j), .log (startMsg (competition c) (texts report) j)] rfl
            (by intro a ha; simp at ha; rcases ha with rfl | rfl <;> trivial) rfl
  unfold Desk.nextUnlessMax at h
  cases hm : d.rm.maxGames with
  | none => rw [hm] at h; exact hnext h
  | some k =>
    rw [hm] at h
    simp only at h
    split at h
    · obtain ⟨_, rfl⟩ := Prod.mk.inj h
      exact unchanged_of ([.act .halted] ++ [.log ("halting competition: ".toList ++ "max-games reached for this run".toList)]) (by simp [Desk.halt, Desk.log])
        (by intro a ha; simp only [List.singleton_append, List.mem_cons, List.not_mem_nil, or_false] at ha; rcases ha with rfl | rfl <;> trivial) rfl
    · exact hnext (d := { d with rm := { d.rm with maxGames := some (k - 1) } }) h

theorem unchanged_getJob {report : State → Str} {d d' : Desk State Job Response Saved CErr} {e : LEnv Unit} {r : Except (DExc CErr) (Option Job)}
    (h : d.getJob (competition c) (texts report) e = (r, d')) : Unchanged d d' := by
  have h1 : ∀ {d d' : Desk State Job Response Saved CErr} {r : Except (DExc CErr) (Option Job)}, d.getJob1 (competition c) (texts report) e = (r, d') → Unchanged d d' := by
    intro d d' r h
    unfold Desk.getJob1 at h
    split at h
    · obtain ⟨_, rfl⟩ := Prod.mk.inj h; exact Unchanged.refl d
    · rcases ht : d.terminal.stopWasRequested e.tty with ⟨u | _ | _, t⟩ <;> rw [ht] at h <;> simp only at h
      · obtain ⟨_, rfl⟩ := Prod.mk.inj h; exact ⟨rfl, rfl⟩
      · unfold Desk.afterTerminal at h
        rcases hf : e.cmd.file with _ | m | command <;> rw [hf] at h <;> simp only at h
        · exact (show Unchanged d { d with terminal := t } from ⟨rfl, rfl⟩).trans (unchanged_nextUnlessMax h)
        · exact ((show Unchanged d { d with terminal := t } from ⟨rfl, rfl⟩).trans (unchanged_warn _ _)).trans (unchanged_nextUnlessMax h)
        · split at h
          · have hh : Unchanged d (Desk.halt (Desk.emit { d with terminal := t } [.act .halted]) "stop command received".toList d.rm.halt) :=
              unchanged_of ([.act .halted] ++ [.log ("halting competition: ".toList ++ "stop command received".toList)]) (by simp [Desk.halt, Desk.log])
                (by intro a ha; simp only [List.singleton_append, List.mem_cons, List.not_mem_nil, or_false] at ha; rcases ha with rfl | rfl <;> trivial) rfl
            cases hr : e.cmd.removeFails with
            | none =>
              rw [hr] at h
              obtain ⟨_, rfl⟩ := Prod.mk.inj h
              exact hh.trans (unchanged_of [.removeCommand] rfl (by intro a ha; rcases List.mem_singleton.mp ha with rfl; trivial) rfl)
            | some m =>
              rw [hr] at h
              obtain ⟨_, rfl⟩ := Prod.mk.inj h
              exact hh.trans (unchanged_warn _ _)
          · exact (show Unchanged d { d with terminal := t } from ⟨rfl, rfl⟩).trans (unchanged_nextUnlessMax h)
      · have hh : Unchanged d (Desk.halt (Desk.emit { d with terminal := t } [.act .halted]) "stop instruction received from terminal".toList d.rm.halt) :=
          unchanged_of ([.act .halted] ++ [.log ("halting competition: ".toList ++ "stop instruction received from terminal".toList)]) (by simp [Desk.halt, Desk.log])
            (by intro a ha; simp only [List.singleton_append, List.mem_cons, List.not_mem_nil, or_false] at ha; rcases ha with rfl | rfl <;> trivial) rfl
        obtain ⟨_, rfl⟩ := Prod.mk.inj h
        split
        · exact hh.trans (unchanged_of [.tty "\rCtrl-X received; halting\n".toList] rfl (by intro a ha; rcases List.mem_singleton.mp ha with rfl; trivial) rfl)
        · exact hh
  unfold Desk.getJob at h
  rcases hg : d.getJob1 (competition c) (texts report) e with ⟨x | r1, d1⟩ <;> rw [hg] at h <;> simp only at h
  · obtain ⟨_, rfl⟩ := Prod.mk.inj h; exact h1 hg
  · rcases hu : d1.updateDisplay (competition c) (texts report) e.screen e.report with ⟨x | u, d2⟩ <;> rw [hu] at h <;> simp only at h <;>
      obtain ⟨_, rfl⟩ := Prod.mk.inj h <;> exact (h1 hg).trans (unchanged_display hu)

theorem unchanged_error {report : State → Str} {d d' : Desk State Job Response Saved CErr} {e : LEnv Unit} {j : Job} {r : Except (DExc CErr) Unit}
    (h : d.processError (competition c) (texts report) e j = (r, d')) : Unchanged d d' := by
  rw [processError_eq] at h
  obtain ⟨_, ht⟩ := alarmed_facts (C := competition c) (T := texts report) d e j
  rw [show (texts report).errorLog e.call j (Ring.errorCount d.rm.errorCounts ((competition c).gameId j)) d.rm.comp = [] from rfl, show (heard [] : List (Eff State Job Response Saved CErr)) = [] from rfl,
    List.append_nil] at ht
  have h0 : ∀ {d1 : Desk State Job Response Saved CErr} (l : List (Eff State Job Response Saved CErr)) (a : Ring.Act State Job Response CErr), NoResult a →
      d1.trace = (d.alarmed (competition c) (texts report) e j).trace ++ l → (∀ a ∈ l, NoHistory a) → d1.rm.acts = a :: d.rm.acts → Unchanged d d1 := by
    intro d1 l a ha ht1 hl hacts
    refine unchanged_of (warned d.screen.quiet ("game ".toList ++ (competition c).gameId j ++ " -- ".toList ++ e.message) ++ l) ?_ ?_ (by rw [hacts, accepted_skip ha])
    · rw [ht1, ht, List.append_assoc]
    · intro b hb
      rcases List.mem_append.mp hb with hb | hb
      · exact warned_noHistory _ _ b hb
      · exact hl b hb
  rw [show (competition c).processError e.call j (Ring.errorCount d.rm.errorCounts ((competition c).gameId j)) d.rm.comp =
    (.ok (d.rm.comp.processGameError j).1, (d.rm.comp.processGameError j).2) from rfl] at h
  simp only at h
  generalize d.rm.comp.processGameError j = r0 at h
  obtain ⟨⟨stop, retry⟩, t⟩ := r0
  simp only at h
  generalize Ring.errorCount d.rm.errorCounts ((competition c).gameId j) = n at h
  cases hb : (failedRM d j n stop retry t).bookError (competition c) j n (retry && !stop) with
  | none =>
    rw [hb] at h
    obtain ⟨_, rfl⟩ := Prod.mk.inj h
    exact h0 [.act (.failed j n stop retry t)] (.failed j n stop retry t) trivial rfl (by intro a ha; rcases List.mem_singleton.mp ha with rfl; trivial) rfl
  | some rm =>
    rw [hb] at h
    obtain ⟨b1, _⟩ := bookError_facts hb
    have b2 : rm.acts = .failed j n stop retry t :: d.rm.acts := b1
    simp only at h
    split at h
    · split at h
      · obtain ⟨_, rfl⟩ := Prod.mk.inj h
        refine h0 ([.act (.failed j n stop retry t), .status (rm.voidGameCount, (competition c).save rm.comp)] ++
          (alarm (d.alarmed (competition c) (texts report) e j).screen.quiet "halting run due to void games".toList ++
            [.log ("halting competition: ".toList ++ "too many void games".toList)])) (.failed j n stop retry t) trivial ?_ ?_ b2
        · unfold Desk.log
          rw [emit_trace]
          simp only
          rw [say_warnings_trace, emit_trace]
          simp only [emit_screen, List.append_assoc]
        · intro a ha
          unfold alarm at ha
          simp only [List.cons_append, List.nil_append, List.mem_cons, List.not_mem_nil, or_false] at ha
          rcases ha with rfl | rfl | rfl | rfl | rfl
          · trivial
          · trivial
          · trivial
          · split <;> trivial
          · trivial
      · obtain ⟨_, rfl⟩ := Prod.mk.inj h
        exact h0 [.act (.failed j n stop retry t), .status (rm.voidGameCount, (competition c).save rm.comp)] (.failed j n stop retry t) trivial rfl
          (by intro a ha; simp only [List.mem_cons, List.not_mem_nil, or_false] at ha; rcases ha with rfl | rfl <;> trivial) b2
    · obtain ⟨_, rfl⟩ := Prod.mk.inj h
      exact h0 [.act (.failed j n stop retry t)] (.failed j n stop retry t) trivial rfl (by intro a ha; rcases List.mem_singleton.mp ha with rfl; trivial) b2

/-- The history file has a line for each result. -/
def Kept97 (d : Desk State Job Response Saved CErr) : Prop := List.Forall₂ HistoryLine (historyOf d.trace) (accepted d.rm.acts)

theorem Unchanged.kept {d d' : Desk State Job Response Saved CErr} (h : Unchanged d d') (hk : Kept97 d) : Kept97 d' := by
  unfold Kept97; rw [h.1, h.2]; exact hk

theorem historyLine_spec (j : Job) (x : Response) : HistoryLine (historyLine j x) (j, x) := by
  unfold HistoryLine historyLine Tab.rjust
  simp

theorem kept_response {report : State → Str} {d d' : Desk State Job Response Saved CErr} {e : LEnv Unit} {j : Job} {x : Response} {r : Except (DExc CErr) Unit}
    (hk : Kept97 d) (h : d.processResponse (competition c) (texts report) e j x = (r, d')) : Kept97 d' := by
  rw [processResponse_eq] at h
  obtain ⟨_, ht⟩ := announced_facts (C := competition c) (T := texts report) d e j x
  have hshown : historyOf (responseShown (texts report) d.screen.quiet ((competition c).gameId j) x : List (Eff State Job Response Saved CErr)) = [] := by
    refine historyOf_none (fun a ha => ?_)
    unfold responseShown at ha
    rcases List.mem_cons.mp ha with rfl | ha
    · trivial
    rcases List.mem_append.mp ha with ha | ha
    · obtain ⟨w, _, hw⟩ := List.mem_flatMap.mp ha
      exact warned_noHistory _ _ a hw
    · obtain ⟨w, _, rfl⟩ := List.mem_map.mp ha
      trivial
  have hann : historyOf (d.announced (competition c) (texts report) e j x).trace = historyOf d.trace ++ historyOf (heard ((texts report).resultLog e.call j x d.rm.comp)) := by
    rw [ht, historyOf_append, historyOf_append, hshown, List.nil_append]
  rw [show (competition c).processResult e.call j x d.rm.comp = liftRes (d.rm.comp.processGameResult j (j.result x.outcome)) from rfl] at h
  rcases hr : d.rm.comp.processGameResult j (j.result x.outcome) with ⟨y | u, t⟩ <;> rw [hr] at h <;> simp only [liftRes] at h
  · rw [show (texts report).resultLog e.call j x d.rm.comp = [] by show (match d.rm.comp.processGameResult j (j.result x.outcome) with | (.ok _, _) => _ | (.error _, _) => _) = _; rw [hr]] at hann
    obtain ⟨_, rfl⟩ := Prod.mk.inj h
    unfold Kept97
    rw [emit_trace, historyOf_append, hann]
    simp only [emit_rm, accepted_skip (a := .raised (.py y)) trivial]
    rw [show historyOf (heard [] : List (Eff State Job Response Saved CErr)) = [] from rfl, List.append_nil, show historyOf [.act (.raised (.py y))] = [] from rfl, List.append_nil]
    exact hk
  · rw [show (texts report).resultLog e.call j x d.rm.comp = [(false, historyLine j x)] by
      show (match d.rm.comp.processGameResult j (j.result x.outcome) with | (.ok _, _) => _ | (.error _, _) => _) = _; rw [hr]] at hann
    have h0 : ∀ {d1 : Desk State Job Response Saved CErr} (l : List (Eff State Job Response Saved CErr)), d1.trace = (d.announced (competition c) (texts report) e j x).trace ++ l →
        (∀ a ∈ l, NoHistory a) → d1.rm.acts = .result j x t :: d.rm.acts → Kept97 d1 := by
      intro d1 l ht1 hl hacts
      unfold Kept97
      rw [ht1, historyOf_append, historyOf_none hl, List.append_nil, hann, hacts, accepted_result]
      exact List.rel_append hk (.cons (historyLine_spec j x) .nil)
    rcases hp : Ring.popJob (competition c) d.rm.inProgress ((competition c).gameId j) with _ | ⟨j', q⟩ <;> rw [hp] at h <;> simp only at h
    · obtain ⟨_, rfl⟩ := Prod.mk.inj h
      exact h0 [.act (.result j x t)] rfl (by intro a ha; rcases List.mem_singleton.mp ha with rfl; trivial) rfl
    · split at h
      · obtain ⟨_, rfl⟩ := Prod.mk.inj h
        refine h0 ([.act (.result j x t), .status (d.rm.voidGameCount, (competition c).save t)] ++ [.say .results ("game ".toList ++ (competition c).gameId j ++ ": ".toList ++
            ((texts report).described e.call j x d.rm.comp).getD ((texts report).describe x))]) ?_ ?_ ?_
        · rw [say_results_trace, emit_trace, List.append_assoc]
        · intro a ha
          simp only [List.cons_append, List.nil_append, List.mem_cons, List.not_mem_nil, or_false] at ha
          rcases ha with rfl | rfl | rfl <;> trivial
        · rw [(say_same _ _ _).rm]; rfl
      · obtain ⟨_, rfl⟩ := Prod.mk.inj h
        exact h0 [.act (.result j x t)] rfl (by intro a ha; rcases List.mem_singleton.mp ha with rfl; trivial) rfl

theorem kept_start {report : State → Str} {d d' : Desk State Job Response Saved CErr} {e : ScreenEnv} {r : Except (DExc CErr) Unit} (ha : d.rm.acts = [])
    (ht : ∀ a ∈ d.trace, NoHistory a) (h : d.updateDisplay (competition c) (texts report) e () = (r, d')) : Kept97 d' := by
  refine (unchanged_display h).kept ?_
  unfold Kept97
  rw [ha, historyOf_none ht]
  exact .nil

theorem kept_life {report : State → Str} {quiet : Bool} {workers : Option Nat} {mg : Option Int} {v0 : Nat} {d0 : Option (Nat × Saved)}
    {d : Desk State Job Response Saved CErr} {exc : Option (DExc CErr)} (h : Life (competition c) (texts report) quiet workers mg v0 d0 d exc) : Kept97 d := by
  induction h with
  | start now termios tty e t mg' h =>
    unfold Desk.start at h
    cases workers with
    | none =>
      refine kept_start (d := _) rfl ?_ h
      intro a ha
      rcases List.mem_singleton.mp ha with rfl
      trivial
    | some n =>
      refine kept_start (d := _) rfl ?_ h
      intro a ha
      have ha : a ∈ ([.log _] ++ [.log _] : List (Eff State Job Response Saved CErr)) := ha
      rcases List.mem_append.mp ha with ha | ha <;> rcases List.mem_singleton.mp ha with rfl <;> trivial
  | getJob e _ h ih => exact (unchanged_getJob h).kept ih
  | response e j x _ h ih => exact kept_response ih h
  | error e j _ h ih => exact (unchanged_error h).kept ih

end

/-- C97: during a run of a tournament, however it goes, the history file gets one line for each result which the tournament accepts, in that order, and nothing else: the game id
and the description of the result. -/
theorem C97_history_file {report : State → Str} {quiet : Bool} {workers : Option Nat} {mg : Option Int} {v0 : Nat} {d0 : Option (Nat × Saved)}
    {d : Ring.Live.Desk State Job Response Saved CErr} {exc : Option (Ring.Live.DExc CErr)}
    (h : Ring.Live.Life (competition c) (texts report) quiet workers mg v0 d0 d exc) :
    List.Forall₂ HistoryLine (historyOf d.trace) (accepted (Ring.Live.actsOf d.trace)) := by
  rw [(Ring.Live.C95_record h).1]
  exact kept_life h

/-- C97: for each result which the tournament accepts, the display gets the line "game ID: " with the description of that result, just after the status file has been written, unless the run
ends with an exception there; and there are no other lines on the results channel. -/
theorem C97_shown {report : State → Str} {quiet : Bool} {workers : Option Nat} {mg : Option Int} {v0 : Nat} {d0 : Option (Nat × Saved)}
    {d : Ring.Live.Desk State Job Response Saved CErr} {exc : Option (Ring.Live.DExc CErr)}
    (h : Ring.Live.Life (competition c) (texts report) quiet workers mg v0 d0 d exc) {p r : List (Ring.Live.Eff State Job Response Saved CErr)} :
    (∀ j x t, d.trace = p ++ .act (.result j x t) :: r →
      (∃ v, [.status v, .say .results ("game ".toList ++ j.gameId ++ ": ".toList ++ (j.result x.outcome).describe)] <+: r) ∨ (r = [] ∧ exc ≠ none)) ∧
    ∀ s, d.trace = p ++ .say .results s :: r →
      ∃ j x t v, [.act (.result j x t), .status v] <:+ p ∧ s = "game ".toList ++ j.gameId ++ ": ".toList ++ (j.result x.outcome).describe := by
  have h1 : ∀ {p r : List (Ring.Live.Eff State Job Response Saved CErr)} j x t, d.trace = p ++ .act (.result j x t) :: r →
      (∃ v, [.status v, .say .results ("game ".toList ++ j.gameId ++ ": ".toList ++ (j.result x.outcome).describe)] <+: r) ∨ (r = [] ∧ exc ≠ none) := by
    intro p r j x t ht
    obtain ⟨_, _, _, _, h | h⟩ := Ring.Live.C95_told h ht
    · exact .inl ⟨_, h⟩
    · exact .inr h
  refine ⟨h1, fun s ht => ?_⟩
  obtain ⟨j, x, t, v, hs⟩ := Ring.Live.C95_told h ht
  refine ⟨j, x, t, v, hs, ?_⟩
  obtain ⟨q, rfl⟩ := hs
  rcases h1 (p := q) (r := .status v :: .say .results s :: r) j x t (by rw [ht]; simp) with ⟨v', hp⟩ | ⟨hp, _⟩
  · rw [List.cons_prefix_cons, List.cons_prefix_cons] at hp
    have := hp.2.1
    injection this with _ this
    exact this.symm
  · cases hp

/-- C97: after any runs (with any control files), in a run of a tournament, however it goes: the tournament's results for each matchup are those which were in the status file, followed by the
ones which it has accepted in this run, in order; and so are those in the status file now, except that if the run has ended with an exception then the last one may be missing. -/
theorem C97_results {ctrl : Control} (hc : ctrl.initialise = .ok c) {report : State → Str} {quiet : Bool} {workers : Option Nat} {mg mg' : Option Int} {v0 : Nat} (before : List Event)
    {now : Str} {termios tty : Bool} {e : Ring.Live.LEnv Unit} {t : State} {d : Ring.Live.Desk State Job Response Saved CErr}
    (hl : ((World.after before).disk = none ∧ State.clean c = t ∧ v0 = 0) ∨ ∃ saved, (World.after before).disk = some (v0, saved) ∧ State.load c saved = .ok t)
    (hs : Ring.Live.Desk.start (competition c) (texts report) now quiet workers (Ring.Live.Terminal.initialise termios tty) mg e
      ⟨t, v0, [], [], [], mg', false, (World.after before).disk, []⟩ = (.ok (), d)) {n : Nat} (hn : 1 ≤ n) (steps : List (Step Response (Ring.Live.LEnv Unit))) :
    let m := (Mp.start d n : Mp _ Job Response (Ring.Live.DExc CErr)).run (Ring.Live.source (competition c) (texts report)) steps
    (∀ k, m.src.rm.comp.results.get k = (World.after before).saved k ++ acceptedFor k (accepted (Ring.Live.actsOf m.src.trace))) ∧
    (m.phase.fine → ∀ k, savedIn m.src.rm.disk k = (World.after before).saved k ++ acceptedFor k (accepted (Ring.Live.actsOf m.src.trace))) ∧
    ((∀ k, savedIn m.src.rm.disk k = (World.after before).saved k ++ acceptedFor k (accepted (Ring.Live.actsOf m.src.trace))) ∨
      ∀ k, savedIn m.src.rm.disk k = (World.after before).saved k ++ acceptedFor k (accepted (Ring.Live.actsOf m.src.trace)).dropLast) := by
  intro m
  have hl' : ((World.after before).disk = none ∧ (competition c).clean () = .ok t ∧ v0 = 0) ∨
      ∃ saved, (World.after before).disk = some (v0, saved) ∧ (competition c).load () saved = .ok t := by
    rcases hl with ⟨h1, h2, h3⟩ | ⟨saved, h1, h2⟩
    · exact .inl ⟨h1, by rw [← h2]; rfl, h3⟩
    · refine .inr ⟨saved, h1, ?_⟩
      show (match State.load c saved with | .ok t => _ | .error x => _) = _
      rw [h2]
  obtain ⟨hlife, hstart⟩ := Ring.Live.C95_start hl' hs
  have hm := (Ring.Live.C95_manager hlife n steps []).1
  have hacts := (Ring.Live.C95_record hm).1
  have hbase : Agree (World.after before).saved ⟨t, v0, [], [], [], mg, false, (World.after before).disk, []⟩ := by
    have hw := winv before
    rcases hl with ⟨h1, h2, h3⟩ | ⟨saved, h1, h2⟩
    · subst h2
      refine ⟨⟨List.nodup_nil, nofun⟩, fun k => ?_, fun k => ?_⟩
      · unfold World.saved; rw [h1]; rfl
      · show _ = _ ++ []; rw [List.append_nil]; rfl
    · have hd := hw.disk
      rw [h1] at hd
      obtain ⟨hcore, hres⟩ := core_load (P := noParams) (goodComp hc) ⟨(fun _ _ _ h => by cases h), (fun _ h => by cases h)⟩ hd h2
      obtain ⟨l, htinv⟩ := hcore.tinv
      refine ⟨htinv.pickle, fun k => ?_, fun k => ?_⟩
      · show _ = _ ++ []
        rw [List.append_nil, hres]
        unfold World.saved
        rw [h1]
        rfl
      · show _ = _ ++ []; rw [List.append_nil]; rfl
  have hd : Agree (World.after before).saved d.rm := by
    obtain ⟨t1, t0, hst, h2, h3, h4, h5⟩ := Ring.start_facts (competition c) hstart
    have ht0 : t0 = t := by
      rcases hl' with ⟨h1, h6, _⟩ | ⟨saved, h1, h6⟩
      · have := (h2 h1).1
        rw [show (competition c).clean () = .ok t from h6] at this
        exact (Except.ok.inj this).symm
      · have := (h3 _ _ h1).1
        rw [show (competition c).load () saved = .ok t from h6] at this
        exact (Except.ok.inj this).symm
    subst ht0
    cases hq : quiet with
    | true =>
      have := h4 (by rw [hq]; rfl)
      subst this
      rw [hst]
      exact hbase.move hbase.pickles (fun _ => rfl) rfl rfl
    | false =>
      obtain ⟨u, hu⟩ := h5 (by rw [hq]; rfl)
      obtain ⟨_, rfl⟩ := Prod.mk.inj (show ((Except.ok () : Except CErr Unit), t0.touchAll) = (.ok u, t1) from hu)
      obtain ⟨f1, f2, _⟩ := touchAll_facts t0.comp.matchups t0.results hbase.pickles
      rw [hst]
      exact hbase.move f2 f1 rfl rfl
  have hrun : ∀ steps', Kept (fun s _ => Agree (World.after before).saved s) (AgreeAlways (World.after before).saved) (fun _ => True)
      ((Mp.start d.rm n : Mp _ Job Response (Ring.RExc CErr)).run (Ring.source (competition c)) steps') := by
    intro steps'
    refine kept_run (agree_keeps (c := c) _) steps' ⟨MInv.start d.rm hn, fun _ => hd, hd.always, fun _ => trivial⟩
  obtain ⟨steps', h1, h2⟩ := Ring.Live.C95_same_run (C := competition c) (T := texts report) d n steps
  have hk := hrun steps'
  rw [hacts]
  have halways := hk.always
  rw [h1] at halways
  refine ⟨halways.now, fun hf => ?_, halways.disk⟩
  have hend : Ring.Live.endedWith m.phase = none := by
    rcases hp : m.phase with _ | _ | ⟨_ | x⟩ | ⟨_ | x⟩ <;> rw [hp] at hf <;> first | rfl | exact nomatch hf
  have hfine := ((h2 (by rw [hend]; nofun) (by rw [hend]; nofun)).2.2.2.2.1).mpr hf
  have := (hk.fine hfine).disk
  rw [h1] at this
  exact this

/-- The runs of RingAny with a tournament, after any events. -/
theorem run_same {ctrl : Control} (hc : ctrl.initialise = .ok c) (before : List Event) {mg : Option Int} {e : Ring.Env Unit} {s : Ring.RM State Job Response Saved CErr}
    (hs : Ring.RM.start (competition c) mg e (World.after before).disk = some s) {n : Nat} (hn : 1 ≤ n) (hn' : n < 1024) (steps : List (Step Response (Ring.Env Unit))) :
    let m := (Mp.start s n : Mp _ Job Response (Ring.RExc CErr)).run (Ring.source (competition c)) steps
    World.after (before ++ [.down, .start ctrl mg e.display n] ++ steps.map (fun st => .step (plainStep st))) = .up (plainMp m) ∧ Counted m.src ∧ ∃ v0 d0 mg,
      Kept (Ring.RInv (competition c) v0 d0 mg) (Ring.QInv (competition c) v0 d0 mg) (Ring.AtEnd (competition c)) m := by
  induction steps using List.reverseRecOn with
  | nil =>
    intro m
    have hdown : World.after (before ++ [.down]) = .down (World.after before).disk := by
      unfold World.after
      rw [List.foldl_append]
      show World.step (before.foldl World.step (.down none)) .down = _
      cases before.foldl World.step (.down none) <;> rfl
    have hp := plain_start (c := c) mg e (World.after before).disk
    rw [hs] at hp
    refine ⟨?_, ?_, _, _, _, Ring.start_kept (competition c) hs hn⟩
    · rw [List.map_nil, List.append_nil, show before ++ [.down, .start ctrl mg e.display n] = (before ++ [.down]) ++ [.start ctrl mg e.display n] by rw [List.append_assoc]; rfl]
      unfold World.after
      rw [List.foldl_append]
      show World.step (World.after (before ++ [.down])) _ = _
      rw [hdown]
      simp only [World.step, hc]
      cases ht : RM.start c mg e.display (World.after before).disk with
      | error x => rw [ht] at hp; cases hp
      | ok s' =>
        rw [ht] at hp
        obtain rfl : forget s = s' := Option.some.inj hp
        simp only
        rw [if_pos ⟨hn, hn'⟩]
        rfl
    · obtain ⟨t, t0, hst, _⟩ := Ring.start_facts (competition c) hs
      show Counted s
      rw [hst]
      intro p hp; cases hp
  | append_singleton steps st ih =>
    intro m
    obtain ⟨ih1, ih2, v0, d0, mg0, hk⟩ := ih
    have hm : m = ((Mp.start s n).run (Ring.source (competition c)) steps).step (Ring.source (competition c)) st := by
      show Mp.run _ _ _ = _
      unfold Mp.run; rw [List.foldl_append]; rfl
    have hst := plain_step (c := c) hk ih2 st
    rw [hm]
    refine ⟨?_, counted_step (c := c) ih2 st, v0, d0, mg0, kept_step (Ring.keeps (competition c) v0 d0 mg0) hk st⟩
    rw [List.map_append, ← List.append_assoc]
    unfold World.after
    rw [List.foldl_append]
    show World.step (World.after _) (.step (plainStep st)) = _
    rw [ih1, hst]
    rfl

/-- C97: every run of a tournament, after any earlier runs (with any control files), is one of C36-C47's: at each moment there is a history in which the tournament's state, the status file,
the games in progress and to be retried, and (unless the run has been stopped by a failure of the terminal or the screen) the calls and the queues are the same. -/
theorem C97_live {ctrl : Control} (hc : ctrl.initialise = .ok c) {report : State → Str} {quiet : Bool} {workers : Option Nat} {mg mg' : Option Int} {v0 : Nat} (before : List Event)
    {now : Str} {termios tty : Bool} {e : Ring.Live.LEnv Unit} {t : State} {d : Ring.Live.Desk State Job Response Saved CErr}
    (hl : ((World.after before).disk = none ∧ State.clean c = t ∧ v0 = 0) ∨ ∃ saved, (World.after before).disk = some (v0, saved) ∧ State.load c saved = .ok t)
    (hs : Ring.Live.Desk.start (competition c) (texts report) now quiet workers (Ring.Live.Terminal.initialise termios tty) mg e
      ⟨t, v0, [], [], [], mg', false, (World.after before).disk, []⟩ = (.ok (), d)) {n : Nat} (hn : 1 ≤ n) (hn' : n < 1024) (steps : List (Step Response (Ring.Live.LEnv Unit))) :
    let m := (Mp.start d n : Mp _ Job Response (Ring.Live.DExc CErr)).run (Ring.Live.source (competition c) (texts report)) steps
    ∃ (steps' : List (Step Outcome Env)) (m' : Mp RM Job Outcome RExc),
      World.after (before ++ [.down, .start ctrl mg (!quiet) n] ++ steps'.map .step) = .up m' ∧
      m'.src.t = m.src.rm.comp ∧ m'.src.disk = m.src.rm.disk ∧ m'.src.voidGameCount = m.src.rm.voidGameCount ∧ m'.src.inProgress = m.src.rm.inProgress ∧
      m'.src.toReplay = m.src.rm.toReplay ∧ m'.src.stopping = m.src.rm.stopping ∧
      (Ring.Live.endedWith m.phase ≠ some .terminal → Ring.Live.endedWith m.phase ≠ some .screen →
        m'.jobQ = m.jobQ ∧ m'.workers = m.workers ∧ gotJobs m'.log = gotJobs m.log ∧ (m'.phase.fine ↔ m.phase.fine) ∧ (m'.phase = .returned none ↔ m.phase = .returned none)) := by
  intro m
  have hl' : ((World.after before).disk = none ∧ (competition c).clean () = .ok t ∧ v0 = 0) ∨
      ∃ saved, (World.after before).disk = some (v0, saved) ∧ (competition c).load () saved = .ok t := by
    rcases hl with ⟨h1, h2, h3⟩ | ⟨saved, h1, h2⟩
    · exact .inl ⟨h1, by rw [← h2]; rfl, h3⟩
    · refine .inr ⟨saved, h1, ?_⟩
      show (match State.load c saved with | .ok t => _ | .error x => _) = _
      rw [h2]
  obtain ⟨_, hstart⟩ := Ring.Live.C95_start hl' hs
  obtain ⟨steps1, h1, h2⟩ := Ring.Live.C95_same_run (C := competition c) (T := texts report) d n steps
  obtain ⟨h3, _⟩ := run_same hc before hstart hn hn' steps1
  generalize (Mp.start d.rm n : Mp _ Job Response (Ring.RExc CErr)).run (Ring.source (competition c)) steps1 = m1 at h1 h2 h3
  refine ⟨steps1.map plainStep, plainMp m1, by rw [List.map_map]; exact h3, congrArg Ring.RM.comp h1, congrArg Ring.RM.disk h1, congrArg Ring.RM.voidGameCount h1, congrArg Ring.RM.inProgress h1,
    congrArg Ring.RM.toReplay h1, congrArg Ring.RM.stopping h1, fun ha hb => ?_⟩
  obtain ⟨h4, h5, h6, _, h8, h9⟩ := h2 ha hb
  refine ⟨h5, h6, ?_, ?_, ?_⟩
  · rw [← h4]; exact gotJobs_map _ _
  · rw [← h8]; exact fine_map _ _
  · rw [← h9]; exact returned_map _ _

theorem nodup_by_key {α : Type} {key : α → Str} {g : α → Str} : ∀ l : List α, (∀ k, ((l.filter (fun p => key p = k)).map g).Nodup) →
    (∀ p ∈ l, ∀ p' ∈ l, g p = g p' → key p = key p') → (l.map g).Nodup
  | [], _, _ => List.nodup_nil
  | a :: l, h1, h2 => by
    rw [List.map_cons, List.nodup_cons]
    refine ⟨fun hm => ?_, nodup_by_key l (fun k => ?_) (fun p hp p' hp' => h2 p (List.mem_cons_of_mem _ hp) p' (List.mem_cons_of_mem _ hp'))⟩
    · obtain ⟨p, hp, hg⟩ := List.mem_map.mp hm
      have hk := h2 p (List.mem_cons_of_mem _ hp) a List.mem_cons_self hg
      have := h1 (key a)
      rw [List.filter_cons_of_pos (by simp), List.map_cons, List.nodup_cons] at this
      exact this.1 (List.mem_map.mpr ⟨p, List.mem_filter.mpr ⟨hp, by simpa using hk⟩, hg⟩)
    · have := h1 k
      by_cases hk : key a = k
      · rw [List.filter_cons_of_pos (by simpa using hk), List.map_cons, List.nodup_cons] at this
        exact this.2
      · rwa [List.filter_cons_of_neg (by simpa using hk)] at this

theorem ids_of {events : List Event} {base : Str → List GameResult} {acc : List (Job × Response)}
    (h : ∀ k, (World.after events).saved k = base k ++ acceptedFor k acc) :
    (acc.map (fun p => p.1.gameId)).Nodup ∧ ∀ p ∈ acc, ∀ k, ∀ r ∈ base k, r.gameId ≠ some p.1.gameId := by
  have hid : ∀ (p : Job × Response), (p.1.result p.2.outcome).gameId = some p.1.gameId := fun p => rfl
  have hin : ∀ p ∈ acc, ∃ i, (base p.1.matchupId).length ≤ i ∧ ((World.after events).saved p.1.matchupId)[i]? = some (p.1.result p.2.outcome) := by
    intro p hp
    rw [h]
    have hm : p.1.result p.2.outcome ∈ acceptedFor p.1.matchupId acc := List.mem_map.mpr ⟨p, List.mem_filter.mpr ⟨hp, by simp⟩, rfl⟩
    obtain ⟨i, hi⟩ := List.getElem?_of_mem hm
    exact ⟨(base p.1.matchupId).length + i, Nat.le_add_right _ _, by rw [List.getElem?_append_right (Nat.le_add_right _ _), Nat.add_sub_cancel_left]; exact hi⟩
  constructor
  · refine nodup_by_key (key := fun p => p.1.matchupId) acc (fun k => ?_) (fun p hp p' hp' hg => ?_)
    · have hn : (((World.after events).saved k).map GameResult.gameId).Nodup := by
        rw [List.nodup_iff_getElem?_ne_getElem?]
        intro i i' hi hi' he
        rw [List.length_map] at hi'
        have hi1 := hi.trans hi'
        rw [List.getElem?_map, List.getElem?_map, List.getElem?_eq_getElem hi1, List.getElem?_eq_getElem hi'] at he
        have := (C36_distinct_ids events k k i i' _ _ (List.getElem?_eq_getElem hi1) (List.getElem?_eq_getElem hi') (by simpa using he)).2
        omega
      rw [h, List.map_append, List.nodup_append] at hn
      have h2 := hn.2.1
      unfold acceptedFor at h2
      rw [List.map_map] at h2
      have h3 : (GameResult.gameId ∘ fun p : Job × Response => p.1.result p.2.outcome) = some ∘ fun p => p.1.gameId := funext hid
      rw [h3, ← List.map_map] at h2
      exact h2.of_map _
    · obtain ⟨i, _, hi⟩ := hin p hp
      obtain ⟨i', _, hi'⟩ := hin p' hp'
      exact (C36_distinct_ids events _ _ i i' _ _ hi hi' (by rw [hid, hid, hg])).1
  · intro p hp k r hr he
    obtain ⟨i, hge, hi⟩ := hin p hp
    obtain ⟨i', hi'⟩ := List.getElem?_of_mem hr
    have hlt := (List.getElem?_eq_some_iff.mp hi').1
    have h4 : ((World.after events).saved k)[i']? = some r := by rw [h, List.getElem?_append_left hlt]; exact hi'
    obtain ⟨rfl, rfl⟩ := C36_distinct_ids events _ _ i' i _ _ h4 hi (by rw [he, hid])
    omega

/-- C97: the results accepted in a run have different game ids, which aren't those of any result of an earlier run.  (If the run has ended with an exception, so for all but the last one:
that one may not have reached the status file.) -/
theorem C97_ids {ctrl : Control} (hc : ctrl.initialise = .ok c) {report : State → Str} {quiet : Bool} {workers : Option Nat} {mg mg' : Option Int} {v0 : Nat} (before : List Event)
    {now : Str} {termios tty : Bool} {e : Ring.Live.LEnv Unit} {t : State} {d : Ring.Live.Desk State Job Response Saved CErr}
    (hl : ((World.after before).disk = none ∧ State.clean c = t ∧ v0 = 0) ∨ ∃ saved, (World.after before).disk = some (v0, saved) ∧ State.load c saved = .ok t)
    (hs : Ring.Live.Desk.start (competition c) (texts report) now quiet workers (Ring.Live.Terminal.initialise termios tty) mg e
      ⟨t, v0, [], [], [], mg', false, (World.after before).disk, []⟩ = (.ok (), d)) {n : Nat} (hn : 1 ≤ n) (hn' : n < 1024) (steps : List (Step Response (Ring.Live.LEnv Unit))) :
    let m := (Mp.start d n : Mp _ Job Response (Ring.Live.DExc CErr)).run (Ring.Live.source (competition c) (texts report)) steps
    let acc := accepted (Ring.Live.actsOf m.src.trace)
    (m.phase.fine → (acc.map (fun p => p.1.gameId)).Nodup ∧ ∀ p ∈ acc, ∀ k, ∀ r ∈ (World.after before).saved k, r.gameId ≠ some p.1.gameId) ∧
    (acc.dropLast.map (fun p => p.1.gameId)).Nodup ∧ ∀ p ∈ acc.dropLast, ∀ k, ∀ r ∈ (World.after before).saved k, r.gameId ≠ some p.1.gameId := by
  intro m acc
  obtain ⟨_, h2, h3⟩ := C97_results hc before hl hs hn steps
  obtain ⟨steps', m', hw, _, hd, _⟩ := C97_live hc before hl hs hn hn' steps
  have hsaved : ∀ k, (World.after (before ++ [.down, .start ctrl mg (!quiet) n] ++ steps'.map .step)).saved k = savedIn m.src.rm.disk k := by
    intro k
    rw [hw]
    show savedIn m'.src.disk k = _
    rw [hd]
  refine ⟨fun hf => ids_of (fun k => (hsaved k).trans (h2 hf k)), ?_⟩
  rcases h3 with h3 | h3
  · obtain ⟨h4, h5⟩ := ids_of (fun k => (hsaved k).trans (h3 k))
    exact ⟨h4.sublist ((List.dropLast_sublist _).map _), fun p hp => h5 p ((List.dropLast_sublist _).subset hp)⟩
  · exact ids_of (fun k => (hsaved k).trans (h3 k))

/-! ### An example -/

/-- The competition of the example in Ringmaster. -/
def ringComp : Comp := match (exampleControl 4).initialise with
  | .ok c => c
  | .error _ => ⟨[], none⟩

/-- Its state, loaded from the status file which the example's first run leaves. -/
def ringLoaded : Option (Nat × State) := match (World.after exampleEvents).disk with
  | some (v, s) => (match State.load ringComp s with
    | .ok t => some (v, t)
    | .error _ => none)
  | none => none

/-- The desk, at the start of the next run. -/
def ringDesk : Option (Ring.Live.Desk State Job Response Saved CErr) := match ringLoaded with
  | some (v, t) => (match Ring.Live.Desk.start (competition ringComp) (texts (fun _ => "report".toList)) "12:00".toList true (some 2) (Ring.Live.Terminal.initialise true true) none Ring.Live.exampleCalm
      ⟨t, v, [], [], [], none, false, (World.after exampleEvents).disk, []⟩ with
    | (.ok _, d) => some d
    | (.error _, _) => none)
  | none => none

/-- The run: two games give results (in the other order), and a third fails. -/
def ringRun : Option (Mp (Ring.Live.Desk State Job Response Saved CErr) Job Response (Ring.Live.DExc CErr)) :=
  let mgr : Step Response (Ring.Live.LEnv Unit) := .mgr Ring.Live.exampleCalm
  ringDesk.map (fun d => (Mp.start d 2).run (Ring.Live.source (competition ringComp) (texts (fun _ => "report".toList)))
    [mgr, mgr, mgr, .take 0, .take 1, .finishJob 1 (some ⟨exampleWin .b, [], []⟩), mgr, mgr, .finishJob 0 (some ⟨exampleJigo, ["slow".toList], []⟩), mgr, .take 1, mgr, .finishJob 1 none, mgr, mgr])

/-- C97: the hypotheses are met: in this run (after one which has left one result) two results are accepted, and a game fails. -/
theorem C97_witness :
    (exampleControl 4).initialise = .ok ringComp ∧ ringDesk.isSome = true ∧
    ringRun.map (fun m => (historyOf m.src.trace).map String.ofList) = some ["    m_2 p beat q B+", "    m_0 p vs q jigo"] ∧
    ringRun.map (fun m => (Ring.Live.said .results m.src.trace).map String.ofList) = some ["game m_2: p beat q B+", "game m_0: p vs q jigo"] ∧
    ringRun.map (fun m => (m.src.rm.comp.results.get ['m']).map GameResult.gameId) = some (["m_1".toList, "m_2".toList, "m_0".toList].map some) ∧
    ringRun.map (fun m => (savedIn m.src.rm.disk ['m']).map GameResult.gameId) = some (["m_1".toList, "m_2".toList, "m_0".toList].map some) ∧
    ringRun.map (fun m => (Ring.Live.logged m.src.trace).map String.ofList) = some ["run started at 12:00 with max_games None", "using 2 worker processes",
      "starting game m_0: p (b) vs q (w)", "starting game m_2: p (b) vs q (w)", "response from game m_2", "starting game m_3: q (b) vs p (w)", "response from game m_0", "slow",
      "game m_3 -- no move"] := by
  refine ⟨rfl, by decide +kernel, by decide +kernel, by decide +kernel, by decide +kernel, by decide +kernel, by decide +kernel⟩

end Gomill.Tourn
