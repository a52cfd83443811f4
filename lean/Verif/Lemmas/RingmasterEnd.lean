import Verif.Lemmas.Ringmaster
/-
How many jobs a run of the ringmaster can hand out.
-/
namespace Gomill.Jobs
variable {σ J X ε E : Type}

/-- A measure of how many jobs a source can still hand out. -/
structure Measures (S : Source σ J X ε E) (P : σ → List J → Prop) (f : σ → Nat) : Prop where
  none : ∀ {e s s' fl}, P s fl → S.getJob e s = (.ok none, s') → f s' ≤ f s
  some : ∀ {e s s' fl j}, P s fl → S.getJob e s = (.ok (some j), s') → f s' + 1 ≤ f s
  response : ∀ {e s s' fl j x u}, P s (j :: fl) → S.processResponse e j x s = (.ok u, s') → f s' ≤ f s
  error : ∀ {e s s' fl j u}, P s (j :: fl) → S.processError e j s = (.ok u, s') → f s' ≤ f s

def Spent (f : σ → Nat) (N : Nat) (m : Mp σ J X E) : Prop :=
  (gotJobs m.log).length ≤ N ∧ (m.phase.fine → (gotJobs m.log).length + f m.src ≤ N)

theorem Spent.step {S : Source σ J X ε E} {P : σ → List J → Prop} {f : σ → Nat} (hpres : Preserves S P) (hM : Measures S P f) {N : Nat}
    {m : Mp σ J X E} (hP : m.phase.fine → P m.src m.inFlight) (h : Spent f N m) (s : Step X ε) : Spent f N (m.step S s) := by
  obtain ⟨h1, h2⟩ := h
  have hag : ∀ m1 : Mp σ J X E, m1.afterGet.log = m1.log ∧ m1.afterGet.src = m1.src := by
    intro m1; unfold Mp.afterGet; split <;> exact ⟨rfl, rfl⟩
  cases s with
  | take k =>
    have hl : (m.take k).log = m.log := by unfold Mp.take; split <;> rfl
    show Spent f N (m.take k)
    unfold Spent
    rw [hl, (take_src m k).1, (take_src m k).2]
    exact ⟨h1, h2⟩
  | finishJob k x =>
    have hl : gotJobs (m.finishJob k x).log = gotJobs m.log := by unfold Mp.finishJob; split <;> rfl
    show Spent f N (m.finishJob k x)
    unfold Spent
    rw [hl, (finishJob_src m k x).1, (finishJob_src m k x).2]
    exact ⟨h1, h2⟩
  | mgr e =>
    show Spent f N (m.mgr S e)
    unfold Mp.mgr
    cases hph : m.phase with
    | looping =>
      have hfine : m.phase.fine := by rw [hph]; trivial
      have hp := hP hfine
      have h3 := h2 hfine
      simp only
      unfold Mp.topOfLoop
      split
      · rcases hg : S.getJob e m.src with ⟨x | _ | j, s⟩
        · exact ⟨h1, fun hf => absurd hf (by simp [Mp.beginFinish, Phase.fine])⟩
        · have := hM.none hp hg
          obtain ⟨a1, a2⟩ := hag { m with src := s, log := .nothing :: m.log }
          simp only
          unfold Spent
          rw [a1, a2]
          simp only [gotJobs]
          exact ⟨h1, fun _ => by omega⟩
        · have := hM.some hp hg
          unfold Spent
          simp only [gotJobs, List.length_cons]
          exact ⟨by omega, fun _ => by omega⟩
      · obtain ⟨a1, a2⟩ := hag m
        unfold Spent
        rw [a1, a2]
        exact ⟨h1, fun _ => h3⟩
    | waiting =>
      have hfine : m.phase.fine := by rw [hph]; trivial
      have hp := hP hfine
      have h3 := h2 hfine
      simp only
      unfold Mp.takeResponse
      rcases hq : m.respQ with _ | ⟨⟨j, _ | x⟩, rest⟩
      · exact ⟨h1, h2⟩
      · have hp' : P m.src (j :: (m.queued ++ m.running ++ rest.map Prod.fst)) := by
          refine hpres.perm hp ?_
          unfold Mp.inFlight; rw [hq]; exact List.perm_middle
        simp only
        rcases hr : S.processError e j m.src with ⟨x | u, s⟩
        · exact ⟨h1, fun hf => absurd hf (by simp [Mp.endOfLoop, Mp.beginFinish, Phase.fine])⟩
        · have := hM.error hp' hr
          exact ⟨h1, fun _ => by show (gotJobs m.log).length + f s ≤ N; omega⟩
      · have hp' : P m.src (j :: (m.queued ++ m.running ++ rest.map Prod.fst)) := by
          refine hpres.perm hp ?_
          unfold Mp.inFlight; rw [hq]; exact List.perm_middle
        simp only
        rcases hr : S.processResponse e j x m.src with ⟨x | u, s⟩
        · exact ⟨h1, fun hf => absurd hf (by simp [Mp.endOfLoop, Mp.beginFinish, Phase.fine])⟩
        · have := hM.response hp' hr
          exact ⟨h1, fun _ => by show (gotJobs m.log).length + f s ≤ N; omega⟩
    | finishing exc =>
      simp only
      split
      · exact ⟨h1, fun hf => h2 (by rw [hph]; exact hf)⟩
      · exact ⟨h1, h2⟩
    | returned exc => exact ⟨h1, h2⟩

theorem spent_run {S : Source σ J X ε E} {P : σ → List J → Prop} {f : σ → Nat} (hpres : Preserves S P) (hM : Measures S P f) {N : Nat}
    (l : List (Step X ε)) : ∀ {m : Mp σ J X E}, (m.phase.fine → P m.src m.inFlight) → Spent f N m → Spent f N (m.run S l) := by
  induction l with
  | nil => intro m _ h; exact h
  | cons s l ih => intro m hP h; exact ih (preserved_step hpres s hP) (h.step hpres hM hP s)

/-- In a run, a source can't hand out more jobs than the measure says at the start. -/
theorem got_bound {S : Source σ J X ε E} {P : σ → List J → Prop} {f : σ → Nat} (hpres : Preserves S P) (hM : Measures S P f)
    {src : σ} (h : P src []) (n : Nat) (l : List (Step X ε)) :
    (gotJobs ((Mp.start src n : Mp σ J X E).run S l).log).length ≤ f src := by
  refine (spent_run hpres hM (N := f src) l (m := Mp.start src n) ?_ ?_).1
  · intro _
    have h1 : (List.replicate n (Worker.idle : Worker J)).filterMap Worker.job? = [] := by
      rw [List.filterMap_replicate_of_none rfl]
    have : (Mp.start src n : Mp σ J X E).inFlight = [] := by
      simp [Mp.inFlight, Mp.queued, Mp.running, Mp.start, h1]
    rw [this]; exact h
  · exact ⟨Nat.zero_le _, fun _ => by simp [Mp.start, gotJobs]⟩

end Gomill.Jobs

namespace Gomill.Tourn
open Py Sched SchedSpec Jobs

/-! ### --max-games -/

def MaxInv (k : Nat) (s : RM) (_ : List Job) : Prop := ∃ n : Nat, s.maxGames = some (n : Int) ∧ n ≤ k
def maxLeft (s : RM) : Nat := match s.maxGames with | none => 0 | some k => k.toNat

theorem nextJob_max (s : RM) (e : Env) : (s.nextJob e).2.maxGames = s.maxGames := by
  unfold RM.nextJob
  split
  · rfl
  · unfold RM.newGame
    split
    · rfl
    · rfl
    · split <;> rfl

theorem getJob_max (s : RM) (e : Env) : (RM.getJob e s).2.maxGames = (s.getJob1 e).2.maxGames := by
  unfold RM.getJob
  split
  · rename_i h; rw [h]
  · rename_i h; rw [h]; unfold RM.updateDisplay; split <;> rfl

theorem getJob1_max {s : RM} {n : Nat} (h : s.maxGames = some (n : Int)) (e : Env) :
    (∃ n' : Nat, (s.getJob1 e).2.maxGames = some (n' : Int) ∧ n' ≤ n) ∧
    (∀ j, (s.getJob1 e).1 = .ok (some j) → ∃ n' : Nat, (s.getJob1 e).2.maxGames = some (n' : Int) ∧ n' + 1 ≤ n) := by
  unfold RM.getJob1
  split
  · exact ⟨⟨n, h, le_refl _⟩, fun j hj => by simp at hj⟩
  · split
    · exact ⟨⟨n, h, le_refl _⟩, fun j hj => by simp at hj⟩
    · rw [h]
      simp only
      split
      · exact ⟨⟨n, rfl, le_refl _⟩, fun j hj => by simp at hj⟩
      · rename_i h0
        rw [nextJob_max]
        have : ((n : Int) - 1) = ((n - 1 : Nat) : Int) := by omega
        simp only
        rw [this]
        exact ⟨⟨n - 1, rfl, by omega⟩, fun j _ => ⟨n - 1, rfl, by omega⟩⟩

theorem processResponse_max (s : RM) (e : Env) (j : Job) (x : Outcome) : (RM.processResponse e j x s).2.maxGames = s.maxGames := by
  unfold RM.processResponse
  split
  · rfl
  · split
    · rfl
    · unfold RM.writeStatus; split <;> rfl

theorem processError_max (s : RM) (e : Env) (j : Job) : (RM.processError e j s).2.maxGames = s.maxGames := by
  unfold RM.processError
  simp only
  split
  · rfl
  · rename_i s' hb
    have hs' : s'.maxGames = s.maxGames := by
      unfold RM.bookError at hb
      split at hb
      · simp at hb
      · split at hb <;> (simp only [Except.ok.injEq] at hb; rw [← hb])
    unfold RM.writeStatus
    by_cases hd : e.diskOk = true
    · simp only [hd, if_true]; split <;> exact hs'
    · simp only [hd]; exact hs'

theorem getJob_fst {s : RM} {e : Env} {r : Option Job} {s' : RM} (h : RM.getJob e s = (.ok r, s')) : (s.getJob1 e).1 = .ok r := by
  unfold RM.getJob at h
  split at h
  · simp at h
  · rename_i h1; rw [h1]; simp only [Prod.mk.injEq] at h; exact h.1

theorem max_preserves (k : Nat) : Preserves source (MaxInv k) where
  perm := fun h _ => h
  none := by
    rintro e s s' fl ⟨n, hn, hle⟩ hg
    obtain ⟨⟨n', h1, h2⟩, _⟩ := getJob1_max hn e
    have hs : s' = (RM.getJob e s).2 := by rw [show RM.getJob e s = _ from hg]
    exact ⟨n', by rw [hs, getJob_max]; exact h1, by omega⟩
  some := by
    rintro e s s' fl j ⟨n, hn, hle⟩ hg
    obtain ⟨⟨n', h1, h2⟩, _⟩ := getJob1_max hn e
    have hs : s' = (RM.getJob e s).2 := by rw [show RM.getJob e s = _ from hg]
    exact ⟨n', by rw [hs, getJob_max]; exact h1, by omega⟩
  response := by
    rintro e s s' fl j x u ⟨n, hn, hle⟩ hg
    have hs : s' = (RM.processResponse e j x s).2 := by rw [show RM.processResponse e j x s = _ from hg]
    exact ⟨n, by rw [hs, processResponse_max]; exact hn, hle⟩
  error := by
    rintro e s s' fl j u ⟨n, hn, hle⟩ hg
    have hs : s' = (RM.processError e j s).2 := by rw [show RM.processError e j s = _ from hg]
    exact ⟨n, by rw [hs, processError_max]; exact hn, hle⟩

theorem max_measures (k : Nat) : Measures source (MaxInv k) maxLeft where
  none := by
    rintro e s s' fl ⟨n, hn, hle⟩ hg
    obtain ⟨⟨n', h1, h2⟩, _⟩ := getJob1_max hn e
    have hs : s' = (RM.getJob e s).2 := by rw [show RM.getJob e s = _ from hg]
    unfold maxLeft
    rw [hs, getJob_max, h1, hn]; simpa using h2
  some := by
    rintro e s s' fl j ⟨n, hn, hle⟩ hg
    obtain ⟨_, h2⟩ := getJob1_max hn e
    obtain ⟨n', h3, h4⟩ := h2 j (getJob_fst hg)
    have hs : s' = (RM.getJob e s).2 := by rw [show RM.getJob e s = _ from hg]
    unfold maxLeft
    rw [hs, getJob_max, h3, hn]; simpa using h4
  response := by
    rintro e s s' fl j x u ⟨n, hn, hle⟩ hg
    have hs : s' = (RM.processResponse e j x s).2 := by rw [show RM.processResponse e j x s = _ from hg]
    unfold maxLeft
    rw [hs, processResponse_max]
  error := by
    rintro e s s' fl j u ⟨n, hn, hle⟩ hg
    have hs : s' = (RM.processError e j s).2 := by rw [show RM.processError e j s = _ from hg]
    unfold maxLeft
    rw [hs, processError_max]

/-! ### Limited matchups -/

/-- Every matchup has a limit. -/
def Limited (t : State) : Prop :=
  ∀ e ∈ t.scheduler, ∃ l, e.limit = some l ∧ (e.alloc.outstanding = [] ∨ e.alloc.issued ≤ l)

/-- How many more jobs a matchup can have: those not yet issued, one replay for each result to come, and one more if a
failed game would be replayed now. -/
def entryLeft (working prob : List Str) (e : GEntry Str) : Nat :=
  (e.limit.getD 0 - e.alloc.issued).toNat + (e.limit.getD 0 - e.alloc.fixed).toNat +
    (if e.code ∈ working ∧ e.code ∉ prob then 1 else 0)

def stateLeft (t : State) : Nat := (t.scheduler.map (entryLeft t.working t.probationary)).sum

theorem sum_map_one {α : Type} (l : List α) (h : α → α) (f f' : α → Nat) (e : α) (k : Nat) (he : e ∈ l)
    (h1 : ∀ x ∈ l, x ≠ e → f' (h x) ≤ f x) (h2 : f' (h e) + k ≤ f e) : ((l.map h).map f').sum + k ≤ (l.map f).sum := by
  have hle : ∀ l' : List α, (∀ x ∈ l', x ∈ l) → ((l'.map h).map f').sum ≤ (l'.map f).sum := by
    intro l'
    induction l' with
    | nil => simp
    | cons a l' ih =>
      intro hs
      have := ih (fun x hx => hs x (by simp [hx]))
      have ha : f' (h a) ≤ f a := by
        by_cases hae : a = e
        · subst hae; omega
        · exact h1 a (hs a (by simp)) hae
      simp only [List.map_cons, List.sum_cons]; omega
  obtain ⟨l1, l2, rfl⟩ := List.append_of_mem he
  have a1 := hle l1 (fun x hx => by simp [hx])
  have a2 := hle l2 (fun x hx => by simp [hx])
  simp only [List.map_append, List.map_cons, List.sum_append, List.sum_cons]
  omega

theorem eq_of_code {g : Sched.Group Str} (hn : g.codes.Nodup) {e e' : GEntry Str} (he : e ∈ g) (he' : e' ∈ g) (h : e'.code = e.code) :
    e' = e := by
  have h1 := Group.find_of_mem hn he
  have h2 := Group.find_of_mem hn he'
  rw [h, h1] at h2
  exact (Option.some.inj h2).symm

theorem getGame_left {P : Params} {t t' : State} {js : List Job} {b : Bool} (h : Core P t js b) (hL : Limited t) {j : Job}
    (hg : t.getGame = (.ok (some j), t')) : Limited t' ∧ stateLeft t' + 1 ≤ stateLeft t := by
  obtain ⟨l, hl⟩ := h.tinv
  have hn := hl.ginv.nodup
  unfold State.getGame at hg
  rcases hi : t.scheduler.issue with ⟨_ | ⟨c, n⟩, g⟩
  · rw [hi] at hg; simp at hg
  · rw [hi] at hg
    obtain ⟨e, he, hav, _, rfl, rfl, rfl⟩ := issue_eq hi
    simp only at hg
    split at hg
    · simp at hg
    · simp only [Prod.mk.injEq] at hg
      obtain ⟨_, rfl⟩ := hg
      obtain ⟨L, hlim, _⟩ := hL e he
      have havl := (GEntry.available_iff e).1 hav L hlim
      have hiss : e.alloc.issue.2.issued = e.alloc.issued + 1 ∧ e.alloc.issue.2.fixed = e.alloc.fixed := by
        unfold Simple.issue; split <;> exact ⟨rfl, rfl⟩
      refine ⟨?_, ?_⟩
      · intro e' he'
        rcases mem_setAlloc.1 he' with ⟨e0, h0, hc, rfl⟩ | ⟨h0, _⟩
        · have : e0 = e := eq_of_code hn he h0 hc
          subst this
          exact ⟨L, hlim, Or.inr (by show e0.alloc.issue.2.issued ≤ L; rw [hiss.1]; omega)⟩
        · exact hL e' h0
      · unfold stateLeft
        refine sum_map_one t.scheduler _ _ _ e 1 he ?_ ?_
        · intro x hx hne
          have : x.code ≠ e.code := fun hc => hne (eq_of_code hn he hx hc)
          rw [if_neg this]
        · rw [if_pos rfl]
          unfold entryLeft
          simp only [hlim, Option.getD_some, hiss.1, hiss.2]
          omega

theorem mem_setDiscard_ne {α : Type} [DecidableEq α] {l : List α} {a b : α} (h : a ≠ b) : a ∈ setDiscard l b ↔ a ∈ l := by
  unfold setDiscard; exact List.mem_erase_of_ne h

theorem processGameResult_left {P : Params} {t : State} {js : List Job} {b : Bool} {j : Job} (h : Core P t (j :: js) b) (hL : Limited t)
    (r : GameResult) : Limited (t.processGameResult j r).2 ∧ stateLeft (t.processGameResult j r).2 ≤ stateLeft t := by
  obtain ⟨l, hl⟩ := h.tinv
  have hn := hl.ginv.nodup
  obtain ⟨⟨mu, hmu, hj⟩, ho⟩ := h.jobs j (by simp)
  have hjid : j.matchupId = mu.id := by rw [hj]; exact (job_fields mu _).1
  obtain ⟨e, he, hec, helim⟩ := h.covered mu hmu
  have hec' : e.code = j.matchupId := hec.trans hjid.symm
  rw [← hec', allocOf_of_mem hn he] at ho
  have hinv : Inv e.alloc (proj e.code l) := by
    have := hl.ginv.inv e.code
    rwa [allocOf_of_mem hn he] at this
  have hfix : e.alloc.fix j.number = .ok { e.alloc with outstanding := e.alloc.outstanding.erase j.number, fixed := e.alloc.fixed + 1 } := by
    unfold Simple.fix setRemove
    rw [if_pos ho]; rfl
  have hgf : t.scheduler.fix j.matchupId j.number = .ok (t.scheduler.setAlloc j.matchupId
      { e.alloc with outstanding := e.alloc.outstanding.erase j.number, fixed := e.alloc.fixed + 1 }) := by
    unfold Group.fix
    rw [← hec', Group.find_of_mem hn he]
    simp only [hfix]; rfl
  obtain ⟨L, hlim, hor⟩ := hL e he
  have hle : e.alloc.issued ≤ L := by
    rcases hor with hor | hor
    · rw [hor] at ho; simp at ho
    · exact hor
  have hlt : e.alloc.fixed < L := by
    rw [hinv.issuedN] at hle
    rw [hinv.fixedN]
    have := List.length_pos_of_mem ho
    omega
  unfold State.processGameResult
  simp only [hgf]
  rw [← hec']
  refine ⟨?_, ?_⟩
  · intro e' he'
    rcases mem_setAlloc.1 he' with ⟨e0, h0, hc, rfl⟩ | ⟨h0, _⟩
    · have : e0 = e := eq_of_code hn he h0 hc
      subst this
      exact ⟨L, hlim, Or.inr hle⟩
    · exact hL e' h0
  · unfold stateLeft
    refine sum_map_one t.scheduler _ _ _ e 0 he ?_ ?_
    · intro x hx hne
      have hxc : x.code ≠ e.code := fun hc => hne (eq_of_code hn he hx hc)
      rw [if_neg hxc]
      unfold entryLeft
      have : x.code ∈ setDiscard t.probationary e.code ↔ x.code ∈ t.probationary := mem_setDiscard_ne hxc
      have hw : x.code ∈ setAdd t.working e.code ↔ x.code ∈ t.working := by rw [mem_setAdd]; simp [hxc]
      simp only [this, hw]; exact Nat.le_refl _
    · rw [if_pos rfl]
      unfold entryLeft
      simp only [hlim, Option.getD_some]
      split <;> split <;> omega

theorem processGameError_left {P : Params} {t : State} {js : List Job} {b : Bool} {j : Job} (h : Core P t (j :: js) b) :
    ((t.processGameError j).1 = (true, false) ∧ stateLeft (t.processGameError j).2 ≤ stateLeft t) ∨
    ((t.processGameError j).1 = (false, true) ∧ stateLeft (t.processGameError j).2 + 1 ≤ stateLeft t) := by
  obtain ⟨l, hl⟩ := h.tinv
  obtain ⟨⟨mu, hmu, hj⟩, ho⟩ := h.jobs j (by simp)
  have hjid : j.matchupId = mu.id := by rw [hj]; exact (job_fields mu _).1
  obtain ⟨e, he, hec, helim⟩ := h.covered mu hmu
  have hec' : e.code = j.matchupId := hec.trans hjid.symm
  unfold State.processGameError
  split
  · exact Or.inl ⟨rfl, Nat.le_refl _⟩
  · rename_i hc
    rw [not_or, not_not] at hc
    refine Or.inr ⟨rfl, ?_⟩
    unfold stateLeft
    have := sum_map_one t.scheduler id (entryLeft t.working t.probationary)
      (entryLeft t.working (setAdd t.probationary j.matchupId)) e 1 he ?_ ?_
    · rw [List.map_id] at this; exact this
    · intro x _ _
      show entryLeft _ _ x ≤ _
      unfold entryLeft
      by_cases hx : x.code ∈ t.probationary
      · have : x.code ∈ setAdd t.probationary j.matchupId := mem_setAdd.2 (Or.inr hx)
        simp [hx, this]
      · by_cases hy : x.code ∈ t.working
        · simp only [hx, hy, not_false_eq_true, and_self, if_true]; split <;> omega
        · simp [hy]
    · show entryLeft _ _ e + 1 ≤ _
      unfold entryLeft
      have h1 : e.code ∈ setAdd t.probationary j.matchupId := mem_setAdd.2 (Or.inl hec')
      have h2 : e.code ∉ t.probationary := by rw [hec']; exact hc.2
      have h3 : e.code ∈ t.working := by rw [hec']; exact hc.1
      simp [h1, h2, h3]

/-- What's left for a run. -/
def runLeft (s : RM) : Nat := stateLeft s.t + s.toReplay.length

def LInv (P : Params) (s : RM) (fl : List Job) : Prop := RInv P s fl ∧ Limited s.t

theorem newGame_left {P : Params} {s : RM} {fl : List Job} (h : LInv P s fl) :
    Limited s.newGame.2.t ∧ runLeft s.newGame.2 ≤ runLeft s ∧ (∀ j, s.newGame.1 = .ok (some j) → runLeft s.newGame.2 + 1 ≤ runLeft s) := by
  obtain ⟨hr, hL⟩ := h
  unfold RM.newGame
  rcases hr.core.getGame with ⟨j, h1, h2, h3⟩ | ⟨h1, h2⟩
  · obtain ⟨r, t, ht⟩ : ∃ r t, s.t.getGame = (r, t) := ⟨_, _, rfl⟩
    rw [ht] at h1
    simp only at h1
    subst h1
    obtain ⟨g1, g2⟩ := getGame_left hr.core hL ht
    rw [ht]
    simp only
    split
    · refine ⟨g1, ?_, fun j hj => by simp at hj⟩
      show stateLeft t + s.toReplay.length ≤ _
      unfold runLeft; omega
    · refine ⟨g1, ?_, fun j _ => ?_⟩
      · show stateLeft t + s.toReplay.length ≤ _
        unfold runLeft; omega
      · show stateLeft t + s.toReplay.length + 1 ≤ _
        unfold runLeft; omega
  · rw [h1]
    exact ⟨hL, le_refl _, fun j hj => by simp at hj⟩

theorem nextJob_left {P : Params} {s : RM} {fl : List Job} (h : LInv P s fl) (e : Env) :
    Limited (s.nextJob e).2.t ∧ runLeft (s.nextJob e).2 ≤ runLeft s ∧
    (∀ j, (s.nextJob e).1 = .ok (some j) → runLeft (s.nextJob e).2 + 1 ≤ runLeft s) := by
  unfold RM.nextJob
  split
  · rename_i j hj
    have hm : j ∈ s.toReplay := List.mem_of_getElem? hj
    have : (s.toReplay.filter (fun j' => j'.gameId ≠ j.gameId)).length < s.toReplay.length :=
      List.length_filter_lt_length_iff_exists.2 ⟨j, hm, by simp⟩
    refine ⟨h.2, ?_, fun _ _ => ?_⟩
    · show stateLeft s.t + (s.toReplay.filter (fun j' => j'.gameId ≠ j.gameId)).length ≤ _
      unfold runLeft; omega
    · show stateLeft s.t + (s.toReplay.filter (fun j' => j'.gameId ≠ j.gameId)).length + 1 ≤ _
      unfold runLeft; omega
  · exact newGame_left h

theorem getJob_left {P : Params} {s : RM} {fl : List Job} (h : LInv P s fl) (e : Env) :
    Limited (RM.getJob e s).2.t ∧ runLeft (RM.getJob e s).2 ≤ runLeft s ∧
    (∀ j, (RM.getJob e s).1 = .ok (some j) → runLeft (RM.getJob e s).2 + 1 ≤ runLeft s) := by
  have h1 : Limited (s.getJob1 e).2.t ∧ runLeft (s.getJob1 e).2 ≤ runLeft s ∧
      (∀ j, (s.getJob1 e).1 = .ok (some j) → runLeft (s.getJob1 e).2 + 1 ≤ runLeft s) := by
    have hno : ∀ s' : RM, s'.t = s.t → s'.toReplay = s.toReplay → Limited s'.t ∧ runLeft s' ≤ runLeft s := by
      intro s' e1 e2
      unfold runLeft
      rw [e1, e2]; exact ⟨h.2, le_refl _⟩
    unfold RM.getJob1
    split
    · exact ⟨h.2, le_refl _, fun j hj => by simp at hj⟩
    · split
      · exact ⟨h.2, le_refl _, fun j hj => by simp at hj⟩
      · split
        · exact nextJob_left h e
        · split
          · exact ⟨h.2, le_refl _, fun j hj => by simp at hj⟩
          · rename_i k _ _
            have h' : LInv P { s with maxGames := some (k - 1) } fl :=
              ⟨⟨h.1.core, h.1.disk, h.1.diskOk, h.1.flight⟩, h.2⟩
            exact nextJob_left h' e
  unfold RM.getJob
  rcases hg : s.getJob1 e with ⟨x | r, s'⟩
  · rw [hg] at h1; exact ⟨h1.1, h1.2.1, fun j hj => by simp at hj⟩
  · rw [hg] at h1
    simp only at h1 ⊢
    have hu : (s'.updateDisplay e).t.scheduler = s'.t.scheduler ∧ runLeft (s'.updateDisplay e) = runLeft s' := by
      unfold RM.updateDisplay
      split
      · exact ⟨rfl, rfl⟩
      · exact ⟨rfl, rfl⟩
    refine ⟨?_, by rw [hu.2]; exact h1.2.1, fun j hj => by rw [hu.2]; exact h1.2.2 j hj⟩
    unfold Limited
    rw [hu.1]; exact h1.1

theorem processResponse_left {P : Params} {s : RM} {fl : List Job} {j : Job} (h : LInv P s (j :: fl)) (e : Env) (x : Outcome) :
    Limited (RM.processResponse e j x s).2.t ∧ runLeft (RM.processResponse e j x s).2 ≤ runLeft s := by
  obtain ⟨hr, hL⟩ := h
  have hj : j ∈ s.inProgress := hr.flight.mem_iff.1 (by simp)
  have ha : Apart s.inProgress := hr.core.apart.sublist (List.sublist_append_left _ _)
  have hc : Core P s.t (j :: (s.inProgress.filter (fun j' => j'.gameId ≠ j.gameId) ++ s.toReplay)) s.stopping :=
    hr.core.perm ((ha.filter hj).append_right s.toReplay)
  obtain ⟨g1, g2⟩ := processGameResult_left hc hL (j.result x)
  unfold RM.processResponse
  rcases ht : s.t.processGameResult j (j.result x) with ⟨r | r, t⟩
  · rw [ht] at g1 g2
    simp only at g1 g2
    refine ⟨g1, ?_⟩
    show stateLeft t + s.toReplay.length ≤ stateLeft s.t + s.toReplay.length
    omega
  · rw [ht] at g1 g2
    simp only at g1 g2 ⊢
    split
    · refine ⟨g1, ?_⟩
      show stateLeft t + s.toReplay.length ≤ stateLeft s.t + s.toReplay.length
      omega
    · unfold RM.writeStatus
      split
      · refine ⟨g1, ?_⟩
        show stateLeft t + s.toReplay.length ≤ stateLeft s.t + s.toReplay.length
        omega
      · refine ⟨g1, ?_⟩
        show stateLeft t + s.toReplay.length ≤ stateLeft s.t + s.toReplay.length
        omega

theorem processError_left {P : Params} {s : RM} {fl : List Job} {j : Job} (h : LInv P s (j :: fl)) (e : Env) :
    Limited (RM.processError e j s).2.t ∧ runLeft (RM.processError e j s).2 ≤ runLeft s := by
  obtain ⟨hr, hL⟩ := h
  have hj : j ∈ s.inProgress := hr.flight.mem_iff.1 (by simp)
  have ha : Apart s.inProgress := hr.core.apart.sublist (List.sublist_append_left _ _)
  have hc : Core P s.t (j :: (s.inProgress.filter (fun j' => j'.gameId ≠ j.gameId) ++ s.toReplay)) s.stopping :=
    hr.core.perm ((ha.filter hj).append_right s.toReplay)
  have hsched := (processGameError_facts s.t j).2.1
  have hL' : Limited (s.t.processGameError j).2 := by unfold Limited; rw [hsched]; exact hL
  have hstore : (storeJob s.toReplay j).length ≤ s.toReplay.length + 1 := by
    unfold storeJob
    rw [List.length_append]
    have := List.length_filter_le (fun j' : Job => decide (j'.gameId ≠ j.gameId)) s.toReplay
    simpa using this
  unfold RM.processError
  rcases processGameError_left hc with ⟨p4, hle⟩ | ⟨p4, hle⟩
  · simp only [p4]
    simp only [Bool.not_true, Bool.and_false, Bool.true_and]
    unfold RM.bookError
    simp only [ha.del hj]
    unfold RM.writeStatus
    have key : stateLeft (s.t.processGameError j).2 + s.toReplay.length ≤ runLeft s := by unfold runLeft; omega
    by_cases hok : e.diskOk = true
    · simp only [hok, if_true]
      cases hs : s.stopping with
      | true => exact ⟨hL', key⟩
      | false => exact ⟨hL', key⟩
    · simp only [hok]
      exact ⟨hL', key⟩
  · simp only [p4]
    simp only [Bool.not_false, Bool.and_true, Bool.false_and]
    unfold RM.bookError
    simp only [ha.del hj, if_true]
    unfold RM.writeStatus
    have key : stateLeft (s.t.processGameError j).2 + (storeJob s.toReplay j).length ≤ runLeft s := by unfold runLeft; omega
    by_cases hok : e.diskOk = true
    · simp only [hok, if_true]
      exact ⟨hL', key⟩
    · simp only [hok]
      exact ⟨hL', key⟩

theorem limited_preserves (P : Params) : Preserves source (LInv P) where
  perm := fun h hp => ⟨(preserves P).perm h.1 hp, h.2⟩
  none := by
    intro e s s' fl h hg
    refine ⟨(preserves P).none h.1 hg, ?_⟩
    have := (getJob_left h e).1
    rwa [show RM.getJob e s = _ from hg] at this
  some := by
    intro e s s' fl j h hg
    refine ⟨(preserves P).some h.1 hg, ?_⟩
    have := (getJob_left h e).1
    rwa [show RM.getJob e s = _ from hg] at this
  response := by
    intro e s s' fl j x u h hg
    refine ⟨(preserves P).response h.1 hg, ?_⟩
    have := (processResponse_left h e x).1
    rwa [show RM.processResponse e j x s = _ from hg] at this
  error := by
    intro e s s' fl j u h hg
    refine ⟨(preserves P).error h.1 hg, ?_⟩
    have := (processError_left h e).1
    rwa [show RM.processError e j s = _ from hg] at this

theorem limited_measures (P : Params) : Measures source (LInv P) runLeft where
  none := by
    intro e s s' fl h hg
    have := (getJob_left h e).2.1
    rwa [show RM.getJob e s = _ from hg] at this
  some := by
    intro e s s' fl j h hg
    have := (getJob_left h e).2.2 j (by rw [show RM.getJob e s = _ from hg])
    rwa [show RM.getJob e s = _ from hg] at this
  response := by
    intro e s s' fl j x u h hg
    have := (processResponse_left h e x).2
    rwa [show RM.processResponse e j x s = _ from hg] at this
  error := by
    intro e s s' fl j u h hg
    have := (processError_left h e).2
    rwa [show RM.processError e j s = _ from hg] at this

/-! ### The start of a run -/

theorem sum_le_matchups {f : GEntry Str → Nat} {F : Matchup → Nat} : ∀ (g : Sched.Group Str) (ms : List Matchup), g.codes.Nodup →
    (∀ e ∈ g, (∃ mu ∈ ms, mu.id = e.code ∧ f e ≤ F mu) ∨ f e = 0) → (g.map f).sum ≤ (ms.map F).sum := by
  intro g
  induction g with
  | nil => intro ms _ _; simp
  | cons e g ih =>
    intro ms hn h
    have hn' : e.code ∉ Group.codes g ∧ (Group.codes g).Nodup := by
      unfold Group.codes at hn ⊢; rw [List.map_cons] at hn; exact List.nodup_cons.1 hn
    rw [List.map_cons, List.sum_cons]
    rcases h e (by simp) with ⟨mu, hmu, hid, hle⟩ | h0
    · have hp := List.perm_cons_erase hmu
      rw [(hp.map F).sum_nat, List.map_cons, List.sum_cons]
      have := ih (ms.erase mu) hn'.2 ?_
      · omega
      · intro e' he'
        rcases h e' (by simp [he']) with ⟨mu', hmu', hid', hle'⟩ | h0'
        · refine Or.inl ⟨mu', ?_, hid', hle'⟩
          rcases List.mem_cons.1 (hp.mem_iff.1 hmu') with rfl | hm
          · exfalso
            apply hn'.1
            rw [← hid, hid']
            exact List.mem_map_of_mem (f := GEntry.code) he'
          · exact hm
        · exact Or.inr h0'
    · rw [h0, Nat.zero_add]
      exact ih ms hn'.2 (fun e' he' => h e' (by simp [he']))

theorem start_facts {c : Comp} {mg : Option Int} {disp : Bool} {disk : Option (Nat × Saved)} {s : RM} (h : RM.start c mg disp disk = .ok s) :
    s.t.working = [] ∧ s.inProgress = [] ∧ s.toReplay = [] ∧ s.stopping = false ∧ s.t.comp = c ∧ s.maxGames = mg := by
  unfold RM.start RM.updateDisplay at h
  split at h
  · simp only [Except.ok.injEq] at h
    rw [← h]
    split <;> exact ⟨rfl, rfl, rfl, rfl, rfl, rfl⟩
  · split at h
    · simp at h
    · rename_i t ht
      have hw : t.working = [] ∧ t.comp = c := by
        unfold State.load at ht
        repeat' split at ht
        all_goals first | (simp only [Except.ok.injEq] at ht; rw [← ht]; exact ⟨rfl, rfl⟩) | (exact absurd ht (by simp))
      simp only [Except.ok.injEq] at h
      rw [← h]
      split <;> exact ⟨hw.1, rfl, rfl, rfl, hw.2, rfl⟩

theorem linv_start {P : Params} {c : Comp} {mg : Option Int} {disp : Bool} {disk : Option (Nat × Saved)} {s : RM} (hc : GoodComp c)
    (hf : P.Fits c) (hd : DiskOk P disk) (h : RM.start c mg disp disk = .ok s) (hlim : ∀ mu ∈ c.matchups, mu.numberOfGames ≠ none) :
    LInv P s [] ∧ runLeft s ≤ (c.matchups.map (fun mu => 2 * (mu.numberOfGames.getD 0 - ((savedIn disk mu.id).length : Int)).toNat)).sum := by
  obtain ⟨h1, h2⟩ := rinv_start hc hf hd h
  obtain ⟨f1, f2, f3, f4, f5, f6⟩ := start_facts h
  obtain ⟨l, hl⟩ := h1.core.tinv
  have hout : ∀ e ∈ s.t.scheduler, e.alloc.outstanding = [] := by
    intro e he
    rw [List.eq_nil_iff_forall_not_mem]
    intro n hn
    have := h1.core.out f4 e.code n (by rw [allocOf_of_mem hl.ginv.nodup he]; exact hn)
    rw [f2, f3] at this
    simp at this
  refine ⟨⟨h1, ?_⟩, ?_⟩
  · intro e he
    rcases h1.core.entries e he with ⟨mu, hmu, _, hl'⟩ | h0
    · rw [f5] at hmu
      cases hn : mu.numberOfGames with
      | none => exact absurd hn (hlim mu hmu)
      | some L => exact ⟨L, by rw [← hl', hn], Or.inl (hout e he)⟩
    · exact ⟨0, h0, Or.inl (hout e he)⟩
  · unfold runLeft stateLeft
    rw [f1, f3]
    simp only [List.length_nil, Nat.add_zero]
    refine sum_le_matchups _ _ hl.ginv.nodup ?_
    intro e he
    have hinv := hl.ginv.inv e.code
    rw [allocOf_of_mem hl.ginv.nodup he] at hinv
    have hlen := (hl.recs e.code).length_eq
    rw [List.length_reverse] at hlen
    have hi := hinv.issuedN
    have hx := hinv.fixedN
    rw [hout e he] at hi
    rw [← hlen, ← h1.disk, h2] at hi hx
    simp only [List.length_nil] at hi
    rcases h1.core.entries e he with ⟨mu, hmu, hid, hl'⟩ | h0
    · left
      rw [f5] at hmu
      refine ⟨mu, hmu, hid, ?_⟩
      unfold entryLeft
      rw [hid, hl', hi, hx]
      simp only [List.not_mem_nil, false_and, if_false]
      omega
    · right
      unfold entryLeft
      rw [h0, hi, hx]
      simp

end Gomill.Tourn
