import Verif.Props.RingAny
import Verif.Lemmas.RingEffect
/-
The number of games in progress (C88): never more than there are workers.
-/
namespace Gomill.Ring
open Jobs
variable {σ J X η V E : Type}

theorem starts_append (a b : List (Act σ J X E)) : starts (a ++ b) = starts a + starts b := by
  induction a with
  | nil => simp [starts]
  | cons x a ih => cases x <;> simp only [List.cons_append, starts, ih] <;> omega

theorem playing_length (id : J → Str) (new l : List (Act σ J X E)) : (playing id (new ++ l)).length ≤ starts new + (playing id l).length := by
  induction new with
  | nil => simp [starts]
  | cons x new ih =>
    cases x <;> simp only [List.cons_append, starts, playing, List.length_cons]
    case result => exact Nat.le_trans (List.length_filter_le _ _) ih
    case failed => exact Nat.le_trans (List.length_filter_le _ _) ih
    all_goals omega

/-- Never more than `w` games in progress. -/
def Narrow (id : J → Str) (w : Nat) (acts : List (Act σ J X E)) : Prop := ∀ l, l <:+ acts → (playing id l).length ≤ w

theorem Narrow.add {id : J → Str} {w : Nat} {acts : List (Act σ J X E)} (h : Narrow id w acts) (new : List (Act σ J X E))
    (hn : starts new + (playing id acts).length ≤ w) : Narrow id w (new ++ acts) := by
  induction new with
  | nil => exact h
  | cons x new ih =>
    intro l hl
    rw [List.cons_append, List.suffix_cons_iff] at hl
    rcases hl with rfl | hl
    · exact Nat.le_trans (playing_length id (x :: new) acts) hn
    · refine ih (Nat.le_trans (Nat.add_le_add_right ?_ _) hn) l hl
      cases x <;> simp only [starts] <;> omega

theorem updateDisplay_adds (C : Competition σ J X η V E) (s : RM σ J X V E) (b : Bool) (e : η) :
    ∃ new, (s.updateDisplay C b e).2.acts = new ++ s.acts ∧ starts new = 0 := by
  unfold RM.updateDisplay
  split
  · split
    · exact ⟨[], rfl, rfl⟩
    · exact ⟨[.raised _], rfl, rfl⟩
  · exact ⟨[], rfl, rfl⟩

theorem nextJob_adds (C : Competition σ J X η V E) (e : Env η) (s : RM σ J X V E) :
    ∃ new, (s.nextJob C e).2.acts = new ++ s.acts ∧ starts new ≤ 1 := by
  unfold RM.nextJob
  split
  · exact ⟨[.again _], rfl, Nat.le_refl _⟩
  · unfold RM.newGame
    split
    · exact ⟨[.raised _], rfl, Nat.zero_le _⟩
    · exact ⟨[.noGame], rfl, Nat.zero_le _⟩
    · split
      · exact ⟨[.clash _], rfl, Nat.zero_le _⟩
      · exact ⟨[.offered _], rfl, Nat.le_refl _⟩

theorem getJob_adds (C : Competition σ J X η V E) (e : Env η) (s : RM σ J X V E) :
    ∃ new, (RM.getJob C e s).2.acts = new ++ s.acts ∧ starts new ≤ 1 := by
  have h1 : ∃ new, (s.getJob1 C e).2.acts = new ++ s.acts ∧ starts new ≤ 1 := by
    unfold RM.getJob1
    split
    · exact ⟨[], rfl, Nat.zero_le _⟩
    · split
      · exact ⟨[.halted], rfl, Nat.zero_le _⟩
      · split
        · exact nextJob_adds C e s
        · split
          · exact ⟨[.halted], rfl, Nat.zero_le _⟩
          · exact nextJob_adds C e _
  obtain ⟨new, h1, h2⟩ := h1
  unfold RM.getJob
  rcases hg : s.getJob1 C e with ⟨r, s'⟩
  rw [hg] at h1
  cases r with
  | error x => exact ⟨new, h1, h2⟩
  | ok r =>
    obtain ⟨new', h3, h4⟩ := updateDisplay_adds C s' e.display e.report
    have : ∃ new, (s'.updateDisplay C e.display e.report).2.acts = new ++ s.acts ∧ starts new ≤ 1 :=
      ⟨new' ++ new, by rw [h3, h1, List.append_assoc], by rw [starts_append]; omega⟩
    rcases hd : s'.updateDisplay C e.display e.report with ⟨r', s2⟩
    rw [hd] at this
    simp only [hd]
    cases r' <;> exact this

theorem writeStatus_adds (C : Competition σ J X η V E) (e : Env η) (s : RM σ J X V E) : (s.writeStatus C e).2.acts = s.acts := by
  unfold RM.writeStatus; split <;> rfl

theorem processResponse_adds (C : Competition σ J X η V E) (e : Env η) (j : J) (x : X) (s : RM σ J X V E) :
    ∃ new, (RM.processResponse C e j x s).2.acts = new ++ s.acts ∧ starts new = 0 := by
  unfold RM.processResponse
  split
  · exact ⟨[.raised _], rfl, rfl⟩
  · split
    · exact ⟨[.result _ _ _], rfl, rfl⟩
    · exact ⟨[.result _ _ _], writeStatus_adds _ _ _, rfl⟩

theorem bookError_adds (C : Competition σ J X η V E) {s s' : RM σ J X V E} {j : J} {n : Nat} {b : Bool} (h : s.bookError C j n b = some s') : s'.acts = s.acts := by
  unfold RM.bookError at h
  split at h
  · cases h
  · split at h
    · cases h; rfl
    · split at h <;> (cases h; rfl)

theorem processError_adds (C : Competition σ J X η V E) (e : Env η) (j : J) (s : RM σ J X V E) :
    ∃ new, (RM.processError C e j s).2.acts = new ++ s.acts ∧ starts new = 0 := by
  unfold RM.processError
  split
  · exact ⟨[.raised _], rfl, rfl⟩
  · rename_i stop retry c _
    split
    · exact ⟨[.failed _ _ _ _ _], rfl, rfl⟩
    · rename_i s' hb
      refine ⟨[.failed j (errorCount s.errorCounts (C.gameId j)) stop retry c], ?_, rfl⟩
      have h1 := writeStatus_adds C e s'
      rw [bookError_adds C hb] at h1
      rcases hw : s'.writeStatus C e with ⟨r, s2⟩
      rw [hw] at h1
      cases r with
      | error x => exact h1
      | ok u =>
        simp only
        split <;> exact h1

/-- C88: at no time in a run are more games in progress than the number of workers. -/
theorem C88_workers (C : Competition σ J X η V E) {mg : Option Int} {e : Env η} {d : Option (Nat × V)} {s : RM σ J X V E} (hs : RM.start C mg e d = some s)
    {w : Nat} (hw : 1 ≤ w) (steps : List (Step X (Env η))) {l : List (Act σ J X E)}
    (hl : l <:+ ((Mp.start s w : Mp (RM σ J X V E) J X (RExc E)).run (source C) steps).src.acts) : (playing C.gameId l).length ≤ w := by
  refine (?_ : Narrow C.gameId w _) l hl
  clear hl l
  have h0 := start_kept C hs hw
  have hn0 : Narrow C.gameId w (Mp.start s w : Mp (RM σ J X V E) J X (RExc E)).src.acts := by
    have ha : s.acts = [] := by
      unfold RM.start at hs
      split at hs
      · cases hs
      · rename_i v c _
        split at hs
        · rename_i u s' hd
          obtain ⟨c', hc'⟩ := updateDisplay_ok hd
          injection hs with hs
          rw [← hs, hc']
        · cases hs
    intro l hl
    rw [show (Mp.start s w : Mp (RM σ J X V E) J X (RExc E)).src.acts = s.acts from rfl, ha, List.suffix_nil] at hl
    rw [hl]; exact Nat.zero_le _
  have hnum : (Mp.start s w : Mp (RM σ J X V E) J X (RExc E)).number = w := rfl
  generalize (Mp.start s w : Mp (RM σ J X V E) J X (RExc E)) = m at h0 hn0 hnum
  induction steps generalizing m with
  | nil => exact hn0
  | cons st steps ih =>
    refine ih _ (kept_step (keeps C _ d mg) h0 st) ?_ ?_
    · cases st with
      | take k => rw [show m.step (source C) (.take k) = m.take k from rfl, (take_src m k).1]; exact hn0
      | finishJob k x => rw [show m.step (source C) (.finishJob k x) = m.finishJob k x from rfl, (finishJob_src m k x).1]; exact hn0
      | mgr e =>
        show Narrow C.gameId w (m.mgr (source C) e).src.acts
        have hbase := h0.inv.phase
        have hfine := h0.fine
        unfold Mp.mgr
        cases hp : m.phase with
        | looping =>
          rw [hp] at hbase hfine
          have hi := hfine trivial
          have hlen : (playing C.gameId m.src.acts).length = m.inFlight.length := by rw [hi.playing.length_eq, ← hi.flight.length_eq]
          simp only
          unfold Mp.topOfLoop
          split
          · rename_i hlt
            have key : Narrow C.gameId w ((source C).getJob e m.src).2.acts := by
              obtain ⟨new, h1, h2⟩ := getJob_adds C e m.src
              rw [show (source C).getJob e m.src = RM.getJob C e m.src from rfl, h1]
              refine hn0.add new ?_
              have : m.active = m.inFlight.length := hbase.1
              omega
            split <;> rename_i hg <;> rw [hg] at key
            · exact key
            · exact key
            · unfold Mp.afterGet; split <;> exact key
          · unfold Mp.afterGet; split <;> exact hn0
        | waiting =>
          rw [hp] at hbase hfine
          have hi := hfine trivial
          have hbd : (playing C.gameId m.src.acts).length ≤ w := hn0 _ List.suffix_rfl
          simp only
          unfold Mp.takeResponse
          split
          · exact hn0
          · rename_i j rest _
            have key : Narrow C.gameId w ((source C).processError e j m.src).2.acts := by
              obtain ⟨new, h1, h2⟩ := processError_adds C e j m.src
              rw [show (source C).processError e j m.src = RM.processError C e j m.src from rfl, h1]
              exact hn0.add new (by omega)
            cases h : ((source C).processError e j m.src).1 <;> exact key
          · rename_i j x rest _
            have key : Narrow C.gameId w ((source C).processResponse e j x m.src).2.acts := by
              obtain ⟨new, h1, h2⟩ := processResponse_adds C e j x m.src
              rw [show (source C).processResponse e j x m.src = RM.processResponse C e j x m.src from rfl, h1]
              exact hn0.add new (by omega)
            cases h : ((source C).processResponse e j x m.src).1 <;> exact key
        | finishing x => simp only; split <;> exact hn0
        | returned x => exact hn0
    · have : (m.step (source C) st).number = m.number := by
        cases st with
        | take k => simp only [Mp.step, Mp.take]; split <;> rfl
        | finishJob k x => simp only [Mp.step, Mp.finishJob]; split <;> rfl
        | mgr e =>
          simp only [Mp.step, Mp.mgr]
          split
          · unfold Mp.topOfLoop
            split
            · split
              · rfl
              · rfl
              · unfold Mp.afterGet; split <;> rfl
            · unfold Mp.afterGet; split <;> rfl
          · unfold Mp.takeResponse
            split
            · rfl
            · cases h : ((source C).processError e _ m.src).1 <;> rfl
            · cases h : ((source C).processResponse e _ _ m.src).1 <;> rfl
          · split <;> rfl
          · rfl
      rw [this, hnum]

/-- C88: ... and so in every run which is over, and in what it left in the status file. -/
theorem C88_workers_before (C : Competition σ J X η V E) (events : List (Event X η)) {run : List (Act σ J X E)} (hr : run ∈ earlierRuns C events)
    {l : List (Act σ J X E)} (hl : l <:+ run) : (playing C.gameId l).length < 1024 := by
  suffices h : ∀ run ∈ earlierRuns C events, Narrow C.gameId 1023 run from Nat.lt_succ_of_le (h run hr l hl)
  clear hr hl
  induction events using List.reverseRecOn with
  | nil => intro run hr; cases hr
  | append_singleton events ev ih =>
    intro run hr
    have hst : earlierRuns C (events ++ [ev]) = (storyStep C (story C events) ev).2 := by
      unfold earlierRuns story; rw [List.foldl_append]; rfl
    rw [hst] at hr
    unfold storyStep at hr
    have hw := story_world C events
    simp only at hr
    split at hr
    · rename_i m hm
      rcases List.mem_cons.1 hr with rfl | hr
      · obtain ⟨before, mg, e, w, steps, s, g1, g2, g3, _, rfl⟩ := C88_history C events m (by rw [← hw, hm])
        intro l hl
        refine Nat.le_trans (C88_workers C g1 g2 steps (hl.trans ?_)) (by omega)
        refine (List.dropWhile_suffix _).trans ?_
        unfold withoutUnwritten
        split
        · exact List.tail_suffix _
        · exact List.suffix_rfl
      · exact ih run hr
    · exact ih run hr

end Gomill.Ring
