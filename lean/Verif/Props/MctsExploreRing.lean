import Verif.Props.MctsExplore
import Verif.Props.MctsRing
import Verif.Props.RingWorkers
/-
C93 for the tuner under the ringmaster, where the number of games in progress is that of the workers.
-/
namespace Gomill.Mcts
open MctsSpec Gomill.Ring Jobs
variable {α : Type} [DecidableEq α]

theorem inProgress_playing {splits : List Nat} {id : Game → Ring.Str} (hid : ∀ a b, id a = id b ↔ a.1 = b.1) {acts : List (Act Tuner Game Bool TExc)} {evs : List Ev}
    (h : Matches splits acts evs) (saved : List Ev) :
    ((inProgress (evs ++ .restarted :: saved)).map Prod.fst).Sublist ((playing id acts).map Prod.fst) := by
  have hfilter : ∀ {l : List (Nat × List Nat)} {g : List Game} (n : Nat) (j : Game), j.1 = n → (l.map Prod.fst).Sublist (g.map Prod.fst) →
      ((l.filter (fun x => x.1 ≠ n)).map Prod.fst).Sublist ((g.filter (fun j' => id j' ≠ id j)).map Prod.fst) := by
    intro l g n j hj hs
    have h1 : (l.filter (fun x => x.1 ≠ n)).map Prod.fst = (l.map Prod.fst).filter (fun x => x ≠ n) := by rw [List.filter_map]; rfl
    have h2 : (g.filter (fun j' => id j' ≠ id j)).map Prod.fst = (g.map Prod.fst).filter (fun x => x ≠ n) := by
      rw [List.filter_map]
      congr 1
      apply List.filter_congr
      intro x _
      simp only [Function.comp, ne_eq, hid, hj]
    rw [h1, h2]
    exact hs.filter _
  induction h with
  | nil => exact List.Sublist.slnil
  | @offered l ev n ps path _ _ ih => exact ((List.filter_sublist.map Prod.fst).trans ih).cons_cons n
  | result j won t _ ih => exact hfilter j.1 j rfl ih
  | failed j k stop retry t _ ih => exact hfilter j.1 j rfl ih
  | noGame _ ih => exact ih
  | halted _ ih => exact ih

theorem atMost_matches {splits : List Nat} {id : Game → Ring.Str} (hid : ∀ a b, id a = id b ↔ a.1 = b.1) {w : Nat} {acts : List (Act Tuner Game Bool TExc)} {evs : List Ev}
    (h : Matches splits acts evs) (hn : Narrow id w acts) {saved : List Ev} (hs : AtMost w saved) : AtMost w (evs ++ .restarted :: saved) := by
  have hlen : ∀ {acts : List (Act Tuner Game Bool TExc)} {evs : List Ev}, Matches splits acts evs → Narrow id w acts →
      (inProgress (evs ++ .restarted :: saved)).length ≤ w := by
    intro acts evs h hn
    have := (inProgress_playing hid h saved).length_le
    rw [List.length_map, List.length_map] at this
    exact Nat.le_trans this (hn _ List.suffix_rfl)
  have hcons : ∀ {a : Act Tuner Game Bool TExc} {l}, Narrow id w (a :: l) → Narrow id w l := fun h l hl => h l (hl.trans (List.suffix_cons _ _))
  have hstep : ∀ {e : Ev} {l : List Ev}, (inProgress (e :: l)).length ≤ w → AtMost w l → AtMost w (e :: l) := by
    intro e l h1 h2 l' hl
    rcases List.suffix_cons_iff.1 hl with rfl | hl
    · exact h1
    · exact h2 l' hl
  induction h with
  | nil => exact hstep (Nat.zero_le _) hs
  | @offered l ev n ps path h hp ih => exact hstep (hlen (.offered h hp) hn) (ih (hcons hn))
  | result j won t h ih => exact hstep (hlen (.result j won t h) hn) (ih (hcons hn))
  | failed j k stop retry t h ih => exact hstep (hlen (.failed j k stop retry t h) hn) (ih (hcons hn))
  | noGame _ ih => exact ih (hcons hn)
  | halted _ ih => exact ih (hcons hn)

theorem atMost_recorded {splits : List Nat} {id : Game → Ring.Str} (hid : ∀ a b, id a = id b ↔ a.1 = b.1) {w : Nat} {runs : List (List (Act Tuner Game Bool TExc))}
    {log : List Ev} (h : Recorded splits runs log) (hn : ∀ run ∈ runs, Narrow id w run) : AtMost w log := by
  induction h with
  | nil => intro l hl; rw [List.suffix_nil.1 hl]; exact Nat.zero_le _
  | nothing _ ih => exact ih (fun run hr => hn run (List.mem_cons_of_mem _ hr))
  | run _ _ hm ih => exact atMost_matches hid hm (hn _ List.mem_cons_self) (ih (fun run hr => hn run (List.mem_cons_of_mem _ hr)))

/-- **C93** (with the ringmaster).  However the tuner is run with the ringmaster (whatever the games' results and failures, with any numbers of workers, any schedule,
and any number of runs which end in any way), once the tree's root has had enough visits every node there can be in the tree is there, and has had at least `N`. -/
theorem C93_ringmaster {c : Config} (h : c.Ok) {coef δ : ℝ} (hu : NearUct c.urgency coef δ) (hc : 0 < coef) (hv : 1 ≤ c.initialVisits) (N : Nat) :
    ∃ games : Nat, ∀ (limit : Option Int) (scaled0 : α) (events : List (Event Bool MEnv)) (m : Mp (RM Tuner Game Bool (Saved α) TExc) Game Bool (RExc TExc)),
      World.after (tunerCompetition c limit scaled0) events = .up m → m.phase.fine → games ≤ m.src.comp.root.visits →
      ∀ p : List Nat, p.length ≤ c.maxDepth → (∀ i ∈ p, i < product c.splits) → ∃ n, m.src.comp.root.get p = some n ∧ N ≤ n.visits := by
  obtain ⟨games, hg⟩ := C93_explores (α := α) h hu hc hv 1023 N
  refine ⟨c.initialVisits + games, fun limit scaled0 events m hup hf hvis p hp hr => ?_⟩
  obtain ⟨ops, evs, saved, s1, s2, s3, s4, _⟩ := C89_refines h limit scaled0 events hup hf
  have hid : ∀ a b : Game, (tunerCompetition c limit scaled0).gameId a = (tunerCompetition c limit scaled0).gameId b ↔ a.1 = b.1 :=
    fun a b => ⟨fun hab => Cem.toDigits_inj hab, fun hab => by simp only [tunerCompetition]; rw [hab]⟩
  have hm : AtMost 1023 (Sys.run c limit scaled0 ops).log := by
    rw [s2]
    refine atMost_matches hid s3 ?_ (atMost_recorded hid s4 (fun run hr l hl => Nat.le_of_lt_succ (C88_workers_before _ events hr hl)))
    obtain ⟨before, mg, e, w, steps, s, g1, g2, g3, _, rfl⟩ := C88_history _ events m hup
    exact fun l hl => Nat.le_trans (C88_workers _ g1 g2 steps hl) (by omega)
  have hroot := (C43_counts h limit scaled0 ops (p := []) (n := (Sys.run c limit scaled0 ops).tuner.root) (by cases (Sys.run c limit scaled0 ops).tuner.root; rfl)).1
  have hthrough : through [] (completed (Sys.run c limit scaled0 ops).log) = (completed (Sys.run c limit scaled0 ops).log).length := by
    simp [through]
  rw [s1] at hroot
  obtain ⟨_, n, hn, hvn⟩ := hg limit scaled0 ops hm (by omega) p hp hr
  rw [s1] at hn
  exact ⟨n, hn, by omega⟩

end Gomill.Mcts
