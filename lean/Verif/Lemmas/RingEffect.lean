import Verif.Lemmas.RingAny
import Verif.Props.RingAny
import Verif.Spec.RingStory
/-
What the ringmaster's job-source methods do to the competition, for proving things about particular competitions.
-/
namespace Gomill.Jobs
variable {σ J X ε E : Type}

/-- The exceptions which a source can raise in a run. -/
theorem exc_step {S : Source σ J X ε E} {P : σ → List J → Prop} {B : E → σ → Prop}
    (perm : ∀ {s fl fl'}, P s fl → fl.Perm fl' → P s fl')
    (hg : ∀ {e s s' fl x}, P s fl → S.getJob e s = (.error x, s') → B x s')
    (hr : ∀ {e s s' fl j x y}, P s (j :: fl) → S.processResponse e j x s = (.error y, s') → B y s')
    (he : ∀ {e s s' fl j y}, P s (j :: fl) → S.processError e j s = (.error y, s') → B y s')
    {m : Mp σ J X E} (hP : m.phase.fine → P m.src m.inFlight) (h : ∀ x, m.phase.exc = some x → B x m.src) (st : Step X ε) :
    ∀ x, (m.step S st).phase.exc = some x → B x (m.step S st).src := by
  cases st with
  | take k =>
    show ∀ x, (m.take k).phase.exc = some x → B x (m.take k).src
    rw [(take_src m k).2, (take_src m k).1]; exact h
  | finishJob k x =>
    show ∀ x', (m.finishJob k x).phase.exc = some x' → B x' (m.finishJob k x).src
    rw [(finishJob_src m k x).2, (finishJob_src m k x).1]; exact h
  | mgr e =>
    show ∀ x, (m.mgr S e).phase.exc = some x → B x (m.mgr S e).src
    unfold Mp.mgr
    have hag : ∀ m1 : Mp σ J X E, m1.afterGet.phase.exc = none := by
      intro m1; unfold Mp.afterGet; split <;> rfl
    cases hph : m.phase with
    | looping =>
      have h0 := hP (by rw [hph]; trivial)
      simp only
      unfold Mp.topOfLoop
      split
      · rcases hgj : S.getJob e m.src with ⟨x | _ | j, s⟩ <;> simp only
        · intro x' hx
          have : x = x' := Option.some.inj hx
          exact this ▸ hg h0 hgj
        · intro x hx; rw [hag] at hx; cases hx
        · intro x hx
          have hx' : m.phase.exc = some x := hx
          rw [hph] at hx'; cases hx'
      · intro x hx; rw [hag] at hx; cases hx
    | waiting =>
      have h0 := hP (by rw [hph]; trivial)
      simp only
      unfold Mp.takeResponse
      split
      · intro x hx; rw [hph] at hx; cases hx
      · rename_i j rest hq
        have hP' : P m.src (j :: (m.queued ++ m.running ++ rest.map Prod.fst)) := by
          refine perm h0 ?_
          unfold Mp.inFlight; rw [hq]
          exact List.perm_middle
        rcases hx : S.processError e j m.src with ⟨x | _, s⟩
        · intro x' hx'
          have : x = x' := Option.some.inj hx'
          exact this ▸ he hP' hx
        · intro x' hx'; cases hx'
      · rename_i j x rest hq
        have hP' : P m.src (j :: (m.queued ++ m.running ++ rest.map Prod.fst)) := by
          refine perm h0 ?_
          unfold Mp.inFlight; rw [hq]
          exact List.perm_middle
        rcases hx : S.processResponse e j x m.src with ⟨y | _, s⟩
        · intro x' hx'
          have : y = x' := Option.some.inj hx'
          exact this ▸ hr hP' hx
        · intro x' hx'; cases hx'
    | finishing exc =>
      rw [hph] at h
      simp only
      split
      · exact h
      · rw [hph]; exact h
    | returned exc =>
      rw [hph] at h
      simp only
      rw [hph]; exact h

end Gomill.Jobs

namespace Gomill.Ring
open Jobs
variable {σ J X η V E : Type}

/-- What asking for a new game does. -/
def GetEffect (C : Competition σ J X η V E) (s : RM σ J X V E) (r : Except (RExc E) (Option J)) (s' : RM σ J X V E) :
    Except E (Option J) → Prop
  | .error x => r = .error (.comp x) ∧ s'.acts = .raised x :: s.acts
  | .ok none => r = .ok none ∧ s'.acts = .noGame :: s.acts
  | .ok (some j) => (C.gameId j ∈ s.inProgress.map C.gameId ∧ r = .error .duplicateGameId) ∨ (r = .ok (some j) ∧ s'.acts = .offered j :: s.acts)

/-- What `_get_job` does: nothing; or a replay; or asking for a new game. -/
theorem getJob1_effect (C : Competition σ J X η V E) (e : Env η) (s : RM σ J X V E) {r : Except (RExc E) (Option J)} {s' : RM σ J X V E}
    (h : s.getJob1 C e = (r, s')) : s'.disk = s.disk ∧
      ((r = .ok none ∧ s'.comp = s.comp ∧ s'.toReplay = s.toReplay ∧ (s'.acts = s.acts ∨ s'.acts = .halted :: s.acts)) ∨
       (∃ j ∈ s.toReplay, r = .ok (some j) ∧ s'.comp = s.comp ∧ s'.acts = .again j :: s.acts ∧
          s'.toReplay = s.toReplay.filter (fun j' => C.gameId j' ≠ C.gameId j)) ∨
       (s.stopping = false ∧ s.toReplay = [] ∧ s'.toReplay = [] ∧ s'.comp = (C.getGame e.call s.comp).2 ∧ GetEffect C s r s' (C.getGame e.call s.comp).1)) := by
  have hnext : ∀ (m : Option Int) {r : Except (RExc E) (Option J)} {s' : RM σ J X V E}, RM.nextJob C e { s with maxGames := m } = (r, s') →
      s'.disk = s.disk ∧
       ((∃ j ∈ s.toReplay, r = .ok (some j) ∧ s'.comp = s.comp ∧ s'.acts = .again j :: s.acts ∧
          s'.toReplay = s.toReplay.filter (fun j' => C.gameId j' ≠ C.gameId j)) ∨
       (s.toReplay = [] ∧ s'.toReplay = [] ∧ s'.comp = (C.getGame e.call s.comp).2 ∧ GetEffect C s r s' (C.getGame e.call s.comp).1)) := by
    intro m r s' h
    unfold RM.nextJob at h
    simp only at h
    cases hr : s.toReplay[e.pick % s.toReplay.length]? with
    | some j =>
      rw [hr] at h
      simp only [Prod.mk.injEq] at h
      obtain ⟨rfl, rfl⟩ := h
      exact ⟨rfl, Or.inl ⟨j, List.mem_of_getElem? hr, rfl, rfl, rfl, rfl⟩⟩
    | none =>
      rw [hr] at h
      simp only at h
      have hemp : s.toReplay = [] := by
        rcases hl : s.toReplay with _ | ⟨a, t⟩
        · rfl
        · rw [hl] at hr
          have := List.getElem?_eq_none_iff.1 hr
          have h2 := Nat.mod_lt e.pick (show 0 < (a :: t).length by simp)
          omega
      unfold RM.newGame at h
      rcases hg : C.getGame e.call s.comp with ⟨x | _ | j, c⟩ <;> simp only at h <;> rw [hg] at h <;> simp only at h
      · simp only [Prod.mk.injEq] at h
        obtain ⟨rfl, rfl⟩ := h
        exact ⟨rfl, Or.inr ⟨hemp, hemp, rfl, rfl, rfl⟩⟩
      · simp only [Prod.mk.injEq] at h
        obtain ⟨rfl, rfl⟩ := h
        exact ⟨rfl, Or.inr ⟨hemp, hemp, rfl, rfl, rfl⟩⟩
      · by_cases hin : C.gameId j ∈ s.inProgress.map C.gameId
        · rw [if_pos hin] at h
          simp only [Prod.mk.injEq] at h
          obtain ⟨rfl, rfl⟩ := h
          exact ⟨rfl, Or.inr ⟨hemp, hemp, rfl, Or.inl ⟨hin, rfl⟩⟩⟩
        · rw [if_neg hin] at h
          simp only [Prod.mk.injEq] at h
          obtain ⟨rfl, rfl⟩ := h
          exact ⟨rfl, Or.inr ⟨hemp, hemp, rfl, Or.inr ⟨rfl, rfl⟩⟩⟩
  unfold RM.getJob1 at h
  split at h
  · simp only [Prod.mk.injEq] at h
    obtain ⟨rfl, rfl⟩ := h
    exact ⟨rfl, Or.inl ⟨rfl, rfl, rfl, Or.inl rfl⟩⟩
  · rename_i hns
    have hst : s.stopping = false := by simpa using hns
    split at h
    · simp only [Prod.mk.injEq] at h
      obtain ⟨rfl, rfl⟩ := h
      exact ⟨rfl, Or.inl ⟨rfl, rfl, rfl, Or.inr rfl⟩⟩
    · cases hm : s.maxGames with
      | none =>
        rw [hm] at h
        simp only at h
        rw [show s = { s with maxGames := none } by rw [← hm]] at h
        obtain ⟨h1, h2⟩ := hnext none h
        exact ⟨h1, Or.inr (h2.imp id (fun h => ⟨hst, h⟩))⟩
      | some k =>
        rw [hm] at h
        simp only at h
        split at h
        · simp only [Prod.mk.injEq] at h
          obtain ⟨rfl, rfl⟩ := h
          exact ⟨rfl, Or.inl ⟨rfl, rfl, rfl, Or.inr rfl⟩⟩
        · obtain ⟨h1, h2⟩ := hnext _ h
          exact ⟨h1, Or.inr (h2.imp id (fun h => ⟨hst, h⟩))⟩

/-- What `process_response` does, when the game is one being played. -/
theorem processResponse_effect (C : Competition σ J X η V E) (e : Env η) (s : RM σ J X V E) {j : J} (x : X) (hn : (s.inProgress.map C.gameId).Nodup) (hj : j ∈ s.inProgress)
    {r : Except (RExc E) Unit} {s' : RM σ J X V E} (h : RM.processResponse C e j x s = (r, s')) :
    s'.comp = (C.processResult e.call j x s.comp).2 ∧ s'.toReplay = s.toReplay ∧
    ((∃ y, (C.processResult e.call j x s.comp).1 = .error y ∧ r = .error (.comp y) ∧ s'.disk = s.disk ∧ s'.acts = .raised y :: s.acts) ∨
     (∃ u, (C.processResult e.call j x s.comp).1 = .ok u ∧ s'.acts = .result j x s'.comp :: s.acts ∧
       ((r = .error .statusWrite ∧ s'.disk = s.disk) ∨ (r = .ok () ∧ s'.disk = some (s'.voidGameCount, C.save s'.comp))))) := by
  unfold RM.processResponse at h
  rcases hr : C.processResult e.call j x s.comp with ⟨y | u, c⟩ <;> rw [hr] at h <;> simp only at h
  · simp only [Prod.mk.injEq] at h
    obtain ⟨rfl, rfl⟩ := h
    exact ⟨rfl, rfl, Or.inl ⟨y, rfl, rfl, rfl, rfl⟩⟩
  · rw [popJob_mem C hn hj] at h
    simp only at h
    unfold RM.writeStatus at h
    split at h
    · simp only [Prod.mk.injEq] at h
      obtain ⟨rfl, rfl⟩ := h
      exact ⟨rfl, rfl, Or.inr ⟨u, rfl, rfl, Or.inr ⟨rfl, rfl⟩⟩⟩
    · simp only [Prod.mk.injEq] at h
      obtain ⟨rfl, rfl⟩ := h
      exact ⟨rfl, rfl, Or.inr ⟨u, rfl, rfl, Or.inl ⟨rfl, rfl⟩⟩⟩

/-- What `process_error_response` does, when the game is one being played. -/
theorem processError_effect (C : Competition σ J X η V E) (e : Env η) (s : RM σ J X V E) {j : J} (hn : (s.inProgress.map C.gameId).Nodup) (hj : j ∈ s.inProgress)
    {r : Except (RExc E) Unit} {s' : RM σ J X V E} (h : RM.processError C e j s = (r, s')) :
    s'.comp = (C.processError e.call j (errorCount s.errorCounts (C.gameId j)) s.comp).2 ∧
    ((∃ y, (C.processError e.call j (errorCount s.errorCounts (C.gameId j)) s.comp).1 = .error y ∧ r = .error (.comp y) ∧ s'.disk = s.disk ∧
        s'.toReplay = s.toReplay ∧ s'.acts = .raised y :: s.acts) ∨
     (∃ stop retry, (C.processError e.call j (errorCount s.errorCounts (C.gameId j)) s.comp).1 = .ok (stop, retry) ∧
       s'.acts = .failed j (errorCount s.errorCounts (C.gameId j)) stop retry s'.comp :: s.acts ∧
       s'.toReplay = (if retry && !stop then storeJob C s.toReplay j else s.toReplay) ∧
       ((r = .error .statusWrite ∧ s'.disk = s.disk) ∨ (r = .ok () ∧ s'.disk = some (s'.voidGameCount, C.save s'.comp))))) := by
  unfold RM.processError at h
  rcases hr : C.processError e.call j (errorCount s.errorCounts (C.gameId j)) s.comp with ⟨y | ⟨stop, retry⟩, c⟩ <;> rw [hr] at h <;> simp only at h
  · simp only [Prod.mk.injEq] at h
    obtain ⟨rfl, rfl⟩ := h
    exact ⟨rfl, Or.inl ⟨y, rfl, rfl, rfl, rfl, rfl⟩⟩
  · have key : ∀ s1 : RM σ J X V E, s1.comp = c → s1.disk = s.disk →
        s1.acts = .failed j (errorCount s.errorCounts (C.gameId j)) stop retry c :: s.acts →
        s1.toReplay = (if retry && !stop then storeJob C s.toReplay j else s.toReplay) →
        (match s1.writeStatus C e with
          | (.error x, s') => ((.error x, s') : Except (RExc E) Unit × RM σ J X V E)
          | (.ok _, s') => (.ok (), if stop && !s'.stopping then { s' with stopping := true } else s')) = (r, s') →
        s'.comp = c ∧ ((∃ y, (Except.ok (stop, retry) : Except E (Bool × Bool)) = .error y ∧ r = .error (.comp y) ∧ s'.disk = s.disk ∧
            s'.toReplay = s.toReplay ∧ s'.acts = .raised y :: s.acts) ∨
          (∃ stop' retry', (Except.ok (stop, retry) : Except E (Bool × Bool)) = .ok (stop', retry') ∧
          s'.acts = .failed j (errorCount s.errorCounts (C.gameId j)) stop' retry' s'.comp :: s.acts ∧
          s'.toReplay = (if retry' && !stop' then storeJob C s.toReplay j else s.toReplay) ∧
          ((r = .error .statusWrite ∧ s'.disk = s.disk) ∨ (r = .ok () ∧ s'.disk = some (s'.voidGameCount, C.save s'.comp))))) := by
      intro s1 h1 h2 h3 h4 h5
      unfold RM.writeStatus at h5
      by_cases hd : e.diskOk = true
      · rw [if_pos hd] at h5
        simp only at h5
        split at h5
        · simp only [Prod.mk.injEq] at h5
          obtain ⟨rfl, rfl⟩ := h5
          exact ⟨h1, Or.inr ⟨stop, retry, rfl, by rw [← h1] at h3; exact h3, h4, Or.inr ⟨rfl, rfl⟩⟩⟩
        · simp only [Prod.mk.injEq] at h5
          obtain ⟨rfl, rfl⟩ := h5
          exact ⟨h1, Or.inr ⟨stop, retry, rfl, by rw [← h1] at h3; exact h3, h4, Or.inr ⟨rfl, rfl⟩⟩⟩
      · rw [if_neg hd] at h5
        simp only [Prod.mk.injEq] at h5
        obtain ⟨rfl, rfl⟩ := h5
        exact ⟨h1, Or.inr ⟨stop, retry, rfl, by rw [← h1] at h3; exact h3, h4, Or.inl ⟨rfl, h2⟩⟩⟩
    unfold RM.bookError at h
    simp only at h
    rw [popJob_mem C hn hj] at h
    simp only at h
    by_cases hret : (retry && !stop) = true
    · rw [if_pos hret] at h
      simp only at h
      refine key _ ?_ ?_ ?_ ?_ h
      · rfl
      · rfl
      · rfl
      · rw [if_pos hret]
    · rw [if_neg hret] at h
      by_cases hp : errorCount s.errorCounts (C.gameId j) ≠ 0
      · rw [if_pos hp] at h
        simp only at h
        refine key _ ?_ ?_ ?_ ?_ h
        · rfl
        · rfl
        · rfl
        · rw [if_neg hret]
      · rw [if_neg hp] at h
        simp only at h
        refine key _ ?_ ?_ ?_ ?_ h
        · rfl
        · rfl
        · rfl
        · rw [if_neg hret]

/-- What showing the screen report does, for a competition whose report only can raise one exception. -/
theorem updateDisplay_effect (C : Competition σ J X η V E) {y : E} (hC : ∀ e c, C.screenReport e c = (.ok (), c) ∨ C.screenReport e c = (.error y, c))
    {s s' : RM σ J X V E} {b : Bool} {e : η} {r : Except (RExc E) Unit} (h : s.updateDisplay C b e = (r, s')) :
    (r = .ok () ∧ s' = s) ∨ (r = .error (.comp y) ∧ s'.disk = s.disk ∧ s'.acts = .raised y :: s.acts) := by
  unfold RM.updateDisplay at h
  split at h
  · rcases hC e s.comp with hx | hx <;> rw [hx] at h <;> simp only [Prod.mk.injEq] at h <;> obtain ⟨rfl, rfl⟩ := h
    · exact Or.inl ⟨rfl, rfl⟩
    · exact Or.inr ⟨rfl, rfl, rfl⟩
  · simp only [Prod.mk.injEq] at h
    obtain ⟨rfl, rfl⟩ := h
    exact Or.inl ⟨rfl, rfl⟩

/-- A run can be started if the competition's methods work. -/
theorem start_isSome (C : Competition σ J X η V E) (mg : Option Int) (e : Env η) (d : Option (Nat × V))
    (hn : d = none → ∃ c, C.clean e.call = .ok c) (hs : ∀ v w, d = some (v, w) → ∃ c, C.load e.call w = .ok c)
    (hr : ∀ c, ∃ u c', C.screenReport e.report c = (.ok u, c')) : (RM.start C mg e d).isSome := by
  have hu : ∀ s : RM σ J X V E, ∃ u s', s.updateDisplay C e.display e.report = (.ok u, s') := by
    intro s
    unfold RM.updateDisplay
    obtain ⟨u, c', h⟩ := hr s.comp
    split
    · rw [h]; exact ⟨_, _, rfl⟩
    · exact ⟨_, _, rfl⟩
  unfold RM.start
  cases d with
  | none =>
    obtain ⟨c, hc⟩ := hn rfl
    simp only [hc, Except.toOption, Option.map_some]
    obtain ⟨u, s', h⟩ := hu ⟨c, 0, [], [], [], mg, false, none, []⟩
    rw [h]; rfl
  | some p =>
    obtain ⟨v, w⟩ := p
    obtain ⟨c, hc⟩ := hs v w rfl
    simp only [hc, Except.toOption, Option.map_some]
    obtain ⟨u, s', h⟩ := hu ⟨c, v, [], [], [], mg, false, some (v, w), []⟩
    rw [h]; rfl

/-! ### Histories of runs -/

theorem story_world (C : Competition σ J X η V E) (events : List (Event X η)) : (story C events).1 = World.after C events := by
  induction events using List.reverseRecOn with
  | nil => rfl
  | append_singleton l ev ih =>
    unfold story World.after at *
    rw [List.foldl_append, List.foldl_append]
    show World.step C _ ev = World.step C _ ev
    rw [ih]

/-- What holds of the world, and what is left of the runs which are over. -/
def Holds {τ : Type} (D : Option (Nat × V) → List (List (Act σ J X E)) → Prop) (T : List (List (Act σ J X E)) → τ → Prop)
    (P : τ → RM σ J X V E → List J → Prop) (B : τ → RExc E → RM σ J X V E → Prop) (runs : List (List (Act σ J X E))) : World σ J X V E → Prop
  | .down d => D d runs
  | .up m => ∃ t, T runs t ∧ MInv m ∧ (m.phase.fine → P t m.src m.inFlight) ∧ ∀ x, m.phase.exc = some x → B t x m.src

theorem fine_or_exc {E : Type} (p : Phase E) : p.fine ∨ ∃ x, p.exc = some x := by
  cases p with
  | looping => exact Or.inl trivial
  | waiting => exact Or.inl trivial
  | finishing x => cases x with
    | none => exact Or.inl rfl
    | some x => exact Or.inr ⟨x, rfl⟩
  | returned x => cases x with
    | none => exact Or.inl rfl
    | some x => exact Or.inr ⟨x, rfl⟩

theorem fine_exc {E : Type} {p : Phase E} (h : p.fine) : p.exc = none := by
  cases p with
  | looping => rfl
  | waiting => rfl
  | finishing x => exact h
  | returned x => exact h

/-- Induction over histories of runs. -/
theorem story_holds {τ : Type} (C : Competition σ J X η V E) {D : Option (Nat × V) → List (List (Act σ J X E)) → Prop}
    {T : List (List (Act σ J X E)) → τ → Prop} {P : τ → RM σ J X V E → List J → Prop} {B : τ → RExc E → RM σ J X V E → Prop}
    (h0 : D none [])
    (hstart : ∀ {d runs mg e s}, D d runs → RM.start C mg e d = some s → ∃ t, T runs t ∧ P t s [])
    (hpres : ∀ t, Preserves (source C) (P t))
    (hg : ∀ {t e s s' fl x}, P t s fl → RM.getJob C e s = (.error x, s') → B t x s')
    (hr : ∀ {t e s s' fl j x y}, P t s (j :: fl) → RM.processResponse C e j x s = (.error y, s') → B t y s')
    (he : ∀ {t e s s' fl j y}, P t s (j :: fl) → RM.processError C e j s = (.error y, s') → B t y s')
    (hdown : ∀ {runs t s fl}, T runs t → P t s fl → D s.disk (upToReport s.acts :: runs))
    (hexc : ∀ {runs t x s}, T runs t → B t x s → D s.disk (upToReport (withoutUnwritten (some x) s.acts) :: runs))
    (events : List (Event X η)) : Holds D T P B (earlierRuns C events) (World.after C events) := by
  induction events using List.reverseRecOn with
  | nil => exact h0
  | append_singleton l ev ih =>
    have hw : World.after C (l ++ [ev]) = World.step C (World.after C l) ev := by
      unfold World.after; rw [List.foldl_append]; rfl
    have hs : story C (l ++ [ev]) = storyStep C (story C l) ev := by
      unfold story; rw [List.foldl_append]; rfl
    have he' : earlierRuns C (l ++ [ev]) = (storyStep C (story C l) ev).2 := by unfold earlierRuns; rw [hs]
    rw [hw, he']
    unfold earlierRuns at ih
    have hst := story_world C l
    generalize story C l = p at *
    obtain ⟨w, runs⟩ := p
    simp only at hst ih
    subst hst
    cases hwl : World.after C l with
    | down d =>
      rw [hwl] at ih
      cases ev with
      | start mg e n =>
        show Holds D T P B runs (World.step C (.down d) (.start mg e n))
        simp only [World.step]
        cases hss : RM.start C mg e d with
        | none => exact ih
        | some s =>
          simp only
          split
          · rename_i hn
            obtain ⟨t, ht, hp⟩ := hstart ih hss
            have hi := MInv.start (J := J) (X := X) (E := RExc E) s hn.1
            refine ⟨t, ht, hi, fun _ => ?_, (fun x hx => by cases hx)⟩
            have hfl : (Mp.start s n : Mp (RM σ J X V E) J X (RExc E)).inFlight = [] := by
              obtain ⟨h1, _⟩ := hi.phase
              exact List.eq_nil_of_length_eq_zero h1.symm
            rw [hfl]; exact hp
          · exact ih
      | step st => exact ih
      | down => exact ih
    | up m =>
      rw [hwl] at ih
      obtain ⟨t, ht, hi, hf, hx⟩ := ih
      cases ev with
      | start mg e n => exact ⟨t, ht, hi, hf, hx⟩
      | step st => exact ⟨t, ht, hi.step _ st, preserved_step (hpres t) st hf, exc_step (S := source C) (P := P t) (B := B t) (hpres t).perm (fun h1 h2 => hg h1 h2) (fun h1 h2 => hr h1 h2) (fun h1 h2 => he h1 h2) hf hx st⟩
      | down =>
        show D m.src.disk (inFile m :: runs)
        unfold inFile
        rcases fine_or_exc m.phase with h1 | ⟨x, h1⟩
        · rw [fine_exc h1]; exact hdown ht (hf h1)
        · rw [h1]; exact hexc ht (hx x h1)

end Gomill.Ring
