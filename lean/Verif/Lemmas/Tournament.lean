import Verif.Lemmas.GameId
import Verif.Lemmas.GroupScheduler
import Verif.Props.AllPlayAll
/-
Invariants of tournament states and status files.
-/
namespace Gomill.Tourn
open Py Sched SchedSpec

/-! ### Results dictionaries -/

theorem get_cons (p : Str × List GameResult) (r : Results) (m : Str) :
    Results.get (p :: r) m = if m = p.1 then p.2 else Results.get r m := by
  unfold Results.get
  rw [List.lookup_cons]
  by_cases h : m = p.1
  · simp [h]
  · have : (m == p.1) = false := by simpa using h
    simp [this, h]

theorem get_of_not_mem {r : Results} {m : Str} (h : m ∉ r.map Prod.fst) : r.get m = [] := by
  induction r with
  | nil => rfl
  | cons p r ih =>
    rw [List.map_cons, List.mem_cons, not_or] at h
    rw [get_cons, if_neg h.1, ih h.2]

theorem get_append_nil (r : Results) (k m : Str) : Results.get (r ++ [(k, [])]) m = r.get m := by
  induction r with
  | nil => rw [List.nil_append, get_cons]; split <;> rfl
  | cons p r ih => rw [List.cons_append, get_cons, get_cons, ih]

theorem get_touch (r : Results) (k m : Str) : (r.touch k).get m = r.get m := by
  unfold Results.touch
  split
  · rfl
  · exact get_append_nil r k m

theorem keys_touch (r : Results) (k x : Str) : x ∈ (r.touch k).map Prod.fst ↔ x ∈ r.map Prod.fst ∨ x = k := by
  unfold Results.touch
  split
  · rename_i h
    constructor
    · exact Or.inl
    · rintro (h' | rfl)
      · exact h'
      · exact h
  · rw [List.map_append, List.mem_append]; simp

theorem get_map_append (r : Results) (k m : Str) (x : GameResult) (hk : k ∈ r.map Prod.fst) :
    Results.get (r.map (fun p => if p.1 = k then (p.1, p.2 ++ [x]) else p)) m = if m = k then r.get k ++ [x] else r.get m := by
  induction r with
  | nil => simp at hk
  | cons p r ih =>
    rw [List.map_cons, get_cons]
    by_cases hp : p.1 = k
    · rw [if_pos hp]
      by_cases hm : m = k
      · rw [if_pos (hm.trans hp.symm), if_pos hm, get_cons, if_pos hp.symm]
      · rw [if_neg (fun h => hm (h.trans hp)), if_neg hm, get_cons, if_neg (fun h => hm (h.trans hp))]
        by_cases hk' : k ∈ r.map Prod.fst
        · rw [ih hk', if_neg hm]
        · have : r.map (fun p => if p.1 = k then (p.1, p.2 ++ [x]) else p) = r := by
            conv => rhs; rw [← List.map_id r]
            apply List.map_congr_left
            intro q hq
            rw [if_neg]; · rfl
            intro hc; exact hk' (List.mem_map.2 ⟨q, hq, hc⟩)
          rw [this]
    · rw [if_neg hp]
      have hk' : k ∈ r.map Prod.fst := by
        rw [List.map_cons, List.mem_cons] at hk
        exact hk.resolve_left (fun h => hp h.symm)
      rw [ih hk', get_cons, get_cons]
      by_cases hm : m = p.1
      · rw [if_pos hm, if_neg (fun h => hp (hm.symm.trans h)), if_pos hm]
      · rw [if_neg hm, if_neg hm, if_neg (fun h : k = p.1 => hp h.symm)]

theorem get_append (r : Results) (k m : Str) (x : GameResult) :
    (r.append k x).get m = if m = k then r.get k ++ [x] else r.get m := by
  unfold Results.append
  rw [get_map_append _ _ _ _ ((keys_touch r k k).2 (Or.inr rfl)), get_touch, get_touch]

theorem keys_append (r : Results) (k y : Str) (x : GameResult) :
    y ∈ (r.append k x).map Prod.fst ↔ y ∈ r.map Prod.fst ∨ y = k := by
  rw [← keys_touch]
  unfold Results.append
  rw [List.map_map]
  have : (Prod.fst ∘ fun p : Str × List GameResult => if p.1 = k then (p.1, p.2 ++ [x]) else p) = Prod.fst := by
    funext p; simp only [Function.comp]; split <;> rfl
  rw [this]

/-- It's a dictionary, and every stored result is unchanged by pickling. -/
structure Pickles (r : Results) : Prop where
  nodup : (r.map Prod.fst).Nodup
  same : ∀ p ∈ r, ∀ x ∈ p.2, GameResult.ofState x.getState = x

theorem pickles_touch {r : Results} (h : Pickles r) (k : Str) : Pickles (r.touch k) := by
  unfold Results.touch
  split
  · exact h
  · rename_i hk
    refine ⟨?_, ?_⟩
    · rw [List.map_append, List.nodup_append]
      refine ⟨h.nodup, by simp, ?_⟩
      intro a ha b hb hab
      simp at hb; subst hb; subst hab; exact hk ha
    · intro p hp x hx
      rcases List.mem_append.1 hp with hp | hp
      · exact h.same p hp x hx
      · simp at hp; subst hp; simp at hx

theorem pickles_append {r : Results} (h : Pickles r) (k : Str) {y : GameResult} (hy : GameResult.ofState y.getState = y) :
    Pickles (r.append k y) := by
  refine ⟨?_, ?_⟩
  · have : (Prod.fst ∘ fun p : Str × List GameResult => if p.1 = k then (p.1, p.2 ++ [y]) else p) = Prod.fst := by
      funext p; simp only [Function.comp]; split <;> rfl
    unfold Results.append
    rw [List.map_map, this]
    exact (pickles_touch h k).nodup
  intro p hp x hx
  unfold Results.append at hp
  rw [List.mem_map] at hp
  obtain ⟨q, hq, rfl⟩ := hp
  split at hx
  · rcases List.mem_append.1 hx with hx | hx
    · exact (pickles_touch h k).same q hq x hx
    · simp at hx; subst hx; exact hy
  · exact (pickles_touch h k).same q hq x hx

theorem loadResults_save {t : State} (h : Pickles t.results) : t.save.loadResults = t.results := by
  unfold Saved.loadResults State.save
  simp only [List.map_map]
  conv => rhs; rw [← List.map_id t.results]
  apply List.map_congr_left
  intro p hp
  simp only [Function.comp, List.map_map, id]
  have : p.2.map (GameResult.ofState ∘ GameResult.getState) = p.2 := by
    conv => rhs; rw [← List.map_id p.2]
    apply List.map_congr_left
    intro x hx
    exact h.same p hp x hx
  rw [this]

/-! ### The invariants -/

/-- Side conditions on the control files used: `limit m = some c` says that matchup `m` has never had more than `c` games;
`comp = some c` says that all the control files were equivalent to `c`. -/
structure Params where
  limit : Str → Option Nat
  comp : Option Comp

structure Params.Fits (P : Params) (c : Comp) : Prop where
  limit : ∀ mu ∈ c.matchups, ∀ n, P.limit mu.id = some n → ∃ k, mu.numberOfGames = some k ∧ k ≤ n
  comp : ∀ c', P.comp = some c' → c = c'

structure TInv (P : Params) (g : Sched.Group Str) (res : Results) (l : List (GEv Str)) : Prop where
  ginv : GInv g l
  recs : ∀ m, List.Forall₂ (Records m) (res.get m) (fixedTokens (proj m l)).reverse
  pickle : Pickles res
  between : ∀ m, ∃ p q, p ≠ q ∧ ∀ r ∈ res.get m, Between p q r
  bound : ∀ m n, P.limit m = some n → (allocOf g m).nextNew ≤ n

/-- What matters if all the control files were the same. -/
structure CompOk (c : Comp) (res : Results) (competitors : Option (List Str)) : Prop where
  competitors : competitors = c.competitors
  keys : ∀ k ∈ res.map Prod.fst, k ∈ c.matchups.map Matchup.id
  between : ∀ mu ∈ c.matchups, ∀ r ∈ res.get mu.id, Between mu.player1 mu.player2 r

def DiskOk (P : Params) (d : Option (Nat × Saved)) : Prop :=
  ∀ v s, d = some (v, s) → (∃ l, TInv P s.scheduler s.loadResults l) ∧
    ∀ c, P.comp = some c → CompOk c s.loadResults s.competitors

structure GoodComp (c : Comp) : Prop where
  ids : (c.matchups.map Matchup.id).Nodup
  players : ∀ mu ∈ c.matchups, mu.player1 ≠ mu.player2

theorem goodComp {ctl : Control} {c : Comp} (h : ctl.initialise = .ok c) : GoodComp c := by
  cases ctl with
  | playoff players configs =>
    obtain ⟨_, _, _, _, h1, h2⟩ := C39_playoff players configs c h
    exact ⟨h1, h2⟩
  | allplayall players competitors rounds =>
    obtain ⟨_, _, h1, h2⟩ := C39_pairs players competitors rounds c h
    exact ⟨h2, fun mu hmu => (h1 mu hmu).2.2.1⟩

def Job.key (j : Job) : Str × Nat := (j.matchupId, j.number)

/-- A tournament state, in a run in which the jobs `js` have been handed out. `stop`: no more jobs will be asked for. -/
structure Core (P : Params) (t : State) (js : List Job) (stop : Bool) : Prop where
  tinv : ∃ l, TInv P t.scheduler t.results l
  good : GoodComp t.comp
  fits : P.Fits t.comp
  keys : ∀ c, P.comp = some c → ∀ k ∈ t.results.map Prod.fst, k ∈ c.matchups.map Matchup.id
  between : ∀ mu ∈ t.comp.matchups, ∀ r ∈ t.results.get mu.id, Between mu.player1 mu.player2 r
  entries : ∀ e ∈ t.scheduler, (∃ mu ∈ t.comp.matchups, mu.id = e.code ∧ mu.numberOfGames = e.limit) ∨ e.limit = some 0
  covered : ∀ mu ∈ t.comp.matchups, ∃ e ∈ t.scheduler, e.code = mu.id ∧ e.limit = mu.numberOfGames
  jobs : ∀ j ∈ js, (∃ mu ∈ t.comp.matchups, j = mu.job j.number) ∧ j.number ∈ (allocOf t.scheduler j.matchupId).outstanding
  nodup : (js.map Job.key).Nodup
  out : stop = false → ∀ m n, n ∈ (allocOf t.scheduler m).outstanding → (m, n) ∈ js.map Job.key

theorem Core.perm {P : Params} {t : State} {js js' : List Job} {b : Bool} (h : Core P t js b) (hp : js.Perm js') : Core P t js' b :=
  ⟨h.1, h.2, h.3, h.4, h.5, h.6, h.7, fun j hj => h.8 j (hp.mem_iff.2 hj), ((hp.map Job.key).nodup_iff).1 h.9,
    fun hb m n hn => (hp.map Job.key).mem_iff.1 (h.10 hb m n hn)⟩

theorem Core.stopped {P : Params} {t : State} {js : List Job} {b : Bool} (h : Core P t js b) : Core P t js true :=
  ⟨h.1, h.2, h.3, h.4, h.5, h.6, h.7, h.8, h.9, fun hb => absurd hb (by simp)⟩

theorem Core.drop {P : Params} {t : State} {j : Job} {js : List Job} {b : Bool} (h : Core P t (j :: js) b) : Core P t js true :=
  ⟨h.1, h.2, h.3, h.4, h.5, h.6, h.7, fun j' hj => h.8 j' (List.mem_cons_of_mem _ hj), (List.nodup_cons.1 h.9).2,
    fun hb => absurd hb (by simp)⟩

/-- A change to the state which doesn't matter. -/
theorem Core.congr {P : Params} {t t' : State} {js : List Job} {b : Bool} (h : Core P t js b) (hc : t'.comp = t.comp)
    (hs : t'.scheduler = t.scheduler) (hg : ∀ m, t'.results.get m = t.results.get m) (hp : Pickles t'.results)
    (hk : ∀ k ∈ t'.results.map Prod.fst, k ∈ t.results.map Prod.fst ∨ k ∈ t.comp.matchups.map Matchup.id) : Core P t' js b := by
  obtain ⟨⟨l, h1⟩, h2, h3, h4, h5, h6, h7, h8, h9, h10⟩ := h
  refine ⟨⟨l, ?_⟩, hc ▸ h2, hc ▸ h3, ?_, ?_, ?_, ?_, ?_, h9, ?_⟩
  · rw [hs]
    exact ⟨h1.ginv, fun m => by rw [hg]; exact h1.recs m, hp, fun m => by rw [hg]; exact h1.between m, h1.bound⟩
  · intro c hc' k hk'
    rcases hk k hk' with hk'' | hk''
    · exact h4 c hc' k hk''
    · rw [← h3.comp c hc']; exact hk''
  · rw [hc]; intro mu hmu r hr; rw [hg] at hr; exact h5 mu hmu r hr
  · rw [hc, hs]; exact h6
  · rw [hc, hs]; exact h7
  · rw [hc, hs]; exact h8
  · rw [hs]; exact h10

theorem touchAll_facts (ms : List Matchup) : ∀ (r : Results), Pickles r →
    (∀ m, (ms.foldl (fun r m => r.touch m.id) r).get m = r.get m) ∧ Pickles (ms.foldl (fun r m => r.touch m.id) r) ∧
    ∀ k, k ∈ (ms.foldl (fun r m => Results.touch r m.id) r).map Prod.fst ↔ k ∈ r.map Prod.fst ∨ k ∈ ms.map Matchup.id := by
  induction ms with
  | nil => intro r h; exact ⟨fun _ => rfl, h, fun k => by simp⟩
  | cons m ms ih =>
    intro r h
    obtain ⟨h1, h2, h3⟩ := ih (r.touch m.id) (pickles_touch h m.id)
    refine ⟨fun x => by rw [List.foldl_cons, h1, get_touch], h2, ?_⟩
    intro k
    rw [List.foldl_cons, h3, keys_touch, List.map_cons, List.mem_cons]
    constructor
    · rintro ((h | h) | h)
      · exact Or.inl h
      · exact Or.inr (Or.inl h)
      · exact Or.inr (Or.inr h)
    · rintro (h | h | h)
      · exact Or.inl (Or.inl h)
      · exact Or.inl (Or.inr h)
      · exact Or.inr h

theorem Core.touchAll {P : Params} {t : State} {js : List Job} {b : Bool} (h : Core P t js b) :
    Core P t.touchAll js b ∧ ∀ m, t.touchAll.results.get m = t.results.get m := by
  obtain ⟨l, hl⟩ := h.tinv
  obtain ⟨h1, h2, h3⟩ := touchAll_facts t.comp.matchups t.results hl.pickle
  exact ⟨h.congr rfl rfl h1 h2 (fun k hk => (h3 k).1 hk), h1⟩

/-! ### Jobs -/

theorem job_fields (mu : Matchup) (n : Nat) : (mu.job n).matchupId = mu.id ∧ (mu.job n).number = n ∧
    (mu.job n).gameId = mu.makeGameId n := by
  unfold Matchup.job; split <;> exact ⟨rfl, rfl, rfl⟩

theorem job_gameId {mu : Matchup} {j : Job} (h : j = mu.job j.number) : GameIdOf j.matchupId j.number j.gameId := by
  rw [h]
  obtain ⟨h1, h2, h3⟩ := job_fields mu j.number
  rw [h1, h2, h3]
  exact gameIdOf_make mu _

theorem key_of_gameId {j j' : Job} (h : GameIdOf j.matchupId j.number j.gameId) (h' : GameIdOf j'.matchupId j'.number j'.gameId)
    (he : j.gameId = j'.gameId) : j.key = j'.key := by
  obtain ⟨h1, h2⟩ := gameIdOf_inj h (he ▸ h')
  exact Prod.ext h1 h2

theorem Core.key_gameId {P : Params} {t : State} {js : List Job} {b : Bool} (h : Core P t js b) {j j' : Job} (hj : j ∈ js) (hj' : j' ∈ js)
    (he : j.gameId = j'.gameId) : j.key = j'.key := by
  obtain ⟨⟨mu, _, h1⟩, _⟩ := h.jobs j hj
  obtain ⟨⟨mu', _, h2⟩, _⟩ := h.jobs j' hj'
  exact key_of_gameId (job_gameId h1) (job_gameId h2) he

theorem matchup_of_id {c : Comp} (h : GoodComp c) {mu : Matchup} (hm : mu ∈ c.matchups) :
    c.matchups.find? (fun m => m.id = mu.id) = some mu := by
  have hn := h.ids
  revert hm hn
  generalize c.matchups = l
  intro hm hn
  induction l with
  | nil => simp at hm
  | cons a l ih =>
    rw [List.map_cons, List.nodup_cons] at hn
    rw [List.find?_cons]
    rcases List.mem_cons.1 hm with rfl | hm
    · simp
    · have : a.id ≠ mu.id := fun hc => hn.1 (hc ▸ List.mem_map_of_mem (f := Matchup.id) hm)
      simp only [this, decide_false]
      exact ih hm hn.2

/-- get_game(): no errors; the job is a new one; or nothing happens, and every matchup has had its games issued. -/
theorem Core.getGame {P : Params} {t : State} {js : List Job} {b : Bool} (h : Core P t js b) :
    (∃ j, t.getGame.1 = .ok (some j) ∧ Core P t.getGame.2 (j :: js) b ∧ t.getGame.2.results = t.results) ∨
    (t.getGame = (.ok none, t) ∧ ∀ e ∈ t.scheduler, e.available = false) := by
  obtain ⟨⟨l, hl⟩, h2, h3, h4, h5, h6, h7, h8, h9, h10⟩ := h
  have hstep := ginv_step (p := (t.scheduler, l)) hl.ginv .issue
  simp only [gstepLog] at hstep
  unfold State.getGame
  rcases hi : t.scheduler.issue with ⟨_ | ⟨c, n⟩, g⟩
  · right
    obtain ⟨rfl, hav⟩ := issue_none hi
    exact ⟨rfl, fun e he => by simpa using hav e he⟩
  · left
    rw [hi] at hstep
    simp only at hstep
    obtain ⟨e, he, hav, _, rfl, rfl, rfl⟩ := issue_eq hi
    have hinv : Inv e.alloc (proj e.code l) := by
      have := hl.ginv.inv e.code
      rwa [allocOf_of_mem hl.ginv.nodup he] at this
    have hnew : e.alloc.issue.1 ∉ e.alloc.outstanding := by
      unfold Simple.issue
      cases hm : e.alloc.toReissue.min? with
      | some r => simp only; intro hc; exact hinv.disOR r hc (List.min?_mem hm)
      | none =>
        simp only; intro hc
        have := (hinv.cover e.alloc.nextNew).2 (Or.inl hc); omega
    have hout : ∀ k, k ∈ e.alloc.issue.2.outstanding ↔ k = e.alloc.issue.1 ∨ k ∈ e.alloc.outstanding := by
      intro k
      unfold Simple.issue
      cases e.alloc.toReissue.min? <;> simp [mem_setAdd]
    have halloc : ∀ x, allocOf (t.scheduler.setAlloc e.code e.alloc.issue.2) x
        = if x = e.code then e.alloc.issue.2 else allocOf t.scheduler x :=
      fun x => allocOf_setAlloc hl.ginv.nodup (mem_codes.2 ⟨e, he, rfl⟩) _ x
    have hout' : ∀ m k, k ∈ (allocOf (t.scheduler.setAlloc e.code e.alloc.issue.2) m).outstanding ↔
        (m, k) = (e.code, e.alloc.issue.1) ∨ k ∈ (allocOf t.scheduler m).outstanding := by
      intro m k
      rw [halloc]
      split
      · rename_i hm
        rw [hout, hm, allocOf_of_mem hl.ginv.nodup he]
        simp
      · rename_i hm
        simp [hm]
    obtain ⟨mu, hmu, hid, hlim⟩ : ∃ mu ∈ t.comp.matchups, mu.id = e.code ∧ mu.numberOfGames = e.limit := by
      rcases h6 e he with h | h
      · exact h
      · exfalso
        have := (GEntry.available_iff e).1 hav 0 h
        rw [hinv.issuedN] at this
        omega
    have hf : t.findMatchup e.code = some mu := by
      rw [← hid]; exact matchup_of_id h2 hmu
    simp only
    rw [hf]
    refine ⟨mu.job e.alloc.issue.1, rfl, ?_, rfl⟩
    obtain ⟨j1, j2, j3⟩ := job_fields mu e.alloc.issue.1
    have hkey : (mu.job e.alloc.issue.1).key = (e.code, e.alloc.issue.1) := by
      unfold Job.key; rw [j1, j2, hid]
    refine ⟨⟨_, hstep, ?_, hl.pickle, hl.between, ?_⟩, h2, h3, h4, h5, ?_, ?_, ?_, ?_, ?_⟩
    · intro m
      simp only [proj]
      split
      · exact hl.recs m
      · exact hl.recs m
    · intro m k hm
      rw [halloc]
      split
      · rename_i hme
        subst hme
        obtain ⟨k', hk', hle⟩ := h3.limit mu hmu k (hid ▸ hm)
        have hb := hl.bound e.code k hm
        rw [allocOf_of_mem hl.ginv.nodup he] at hb
        have hav' := (GEntry.available_iff e).1 hav k' (hlim ▸ hk')
        rw [hinv.issuedN] at hav'
        have hnn := hinv.nextNew_eq
        unfold Simple.issue
        cases hm : e.alloc.toReissue.min? with
        | some r => exact hb
        | none =>
          have hr : e.alloc.toReissue = [] := by simpa using hm
          rw [hr] at hnn
          simp only [List.length_nil] at hnn
          simp only; omega
      · exact hl.bound m k hm
    · intro e' he'
      rw [mem_setAlloc] at he'
      rcases he' with ⟨e0, h0, hc, rfl⟩ | ⟨h0, _⟩
      · exact h6 e0 h0
      · exact h6 e' h0
    · intro mu' hmu'
      obtain ⟨e', he', hc, hl'⟩ := h7 mu' hmu'
      by_cases hce : e'.code = e.code
      · exact ⟨{ e' with alloc := e.alloc.issue.2 }, mem_setAlloc.2 (Or.inl ⟨e', he', hce, rfl⟩), hc, hl'⟩
      · exact ⟨e', mem_setAlloc.2 (Or.inr ⟨he', hce⟩), hc, hl'⟩
    · intro j hj
      rcases List.mem_cons.1 hj with rfl | hj
      · refine ⟨⟨mu, hmu, by rw [j2]⟩, ?_⟩
        rw [hout']; left
        exact hkey
      · refine ⟨(h8 j hj).1, ?_⟩
        rw [hout']; right; exact (h8 j hj).2
    · rw [List.map_cons, List.nodup_cons]
      refine ⟨?_, h9⟩
      rw [hkey, List.mem_map]
      rintro ⟨j, hj, hk⟩
      have := (h8 j hj).2
      have e1 : j.matchupId = e.code := congrArg Prod.fst hk
      have e2 : j.number = e.alloc.issue.1 := congrArg Prod.snd hk
      rw [e1, e2, allocOf_of_mem hl.ginv.nodup he] at this
      exact hnew this
    · intro hb m k hk
      rw [hout'] at hk
      rw [List.map_cons, List.mem_cons, hkey]
      rcases hk with hk | hk
      · exact Or.inl hk
      · exact Or.inr (h10 hb m k hk)

theorem forall₂_append {α β : Type} {R : α → β → Prop} {l1 l2 : List α} {m1 m2 : List β} (h1 : List.Forall₂ R l1 m1)
    (h2 : List.Forall₂ R l2 m2) : List.Forall₂ R (l1 ++ l2) (m1 ++ m2) := by
  induction h1 with
  | nil => exact h2
  | cons h _ ih => exact .cons h ih

/-- What's needed of a result to be stored for a job. -/
structure Suits (j : Job) (r : GameResult) : Prop where
  gameId : r.gameId = some j.gameId
  pickle : GameResult.ofState r.getState = r
  between : Between j.playerB j.playerW r

theorem between_comm {p q : Str} {r : GameResult} (h : Between p q r) : Between q p r :=
  ⟨h.1, h.2.1, h.2.2.1, h.2.2.2.symm⟩

theorem job_between {mu : Matchup} {j : Job} {r : GameResult} (h : j = mu.job j.number) (hb : Between j.playerB j.playerW r) :
    Between mu.player1 mu.player2 r := by
  rw [h] at hb
  unfold Matchup.job at hb
  split at hb
  · exact between_comm hb
  · exact hb

/-- process_game_result() for a job handed out: no errors, and the result is recorded. -/
theorem Core.result {P : Params} {t : State} {j : Job} {js : List Job} {b : Bool} (h : Core P t (j :: js) b) {r : GameResult}
    (hr : Suits j r) :
    (t.processGameResult j r).1 = .ok () ∧ Core P (t.processGameResult j r).2 js b ∧
    (t.processGameResult j r).2.results = t.results.append j.matchupId r ∧
    (t.processGameResult j r).2.comp = t.comp := by
  obtain ⟨⟨l, hl⟩, h2, h3, h4, h5, h6, h7, h8, h9, h10⟩ := h
  obtain ⟨⟨mu, hmu, hj⟩, ho⟩ := h8 j (by simp)
  have hjid : j.matchupId = mu.id := by rw [hj]; exact (job_fields mu _).1
  obtain ⟨e, he, hec, helim⟩ := h7 mu hmu
  have hec' : e.code = j.matchupId := hec.trans hjid.symm
  rw [← hec', allocOf_of_mem hl.ginv.nodup he] at ho
  have hfix : e.alloc.fix j.number = .ok { e.alloc with outstanding := e.alloc.outstanding.erase j.number, fixed := e.alloc.fixed + 1 } := by
    unfold Simple.fix setRemove
    rw [if_pos ho]; rfl
  generalize ha : ({ e.alloc with outstanding := e.alloc.outstanding.erase j.number, fixed := e.alloc.fixed + 1 } : Simple) = a at hfix
  have hgf : t.scheduler.fix j.matchupId j.number = .ok (t.scheduler.setAlloc j.matchupId a) := by
    unfold Group.fix
    rw [← hec', Group.find_of_mem hl.ginv.nodup he]
    simp only [hfix]; rfl
  have hstep := ginv_step (p := (t.scheduler, l)) hl.ginv (.fix j.matchupId j.number)
  simp only [gstepLog, hgf] at hstep
  have halloc : ∀ x, allocOf (t.scheduler.setAlloc j.matchupId a) x
      = if x = j.matchupId then a else allocOf t.scheduler x :=
    fun x => allocOf_setAlloc hl.ginv.nodup (mem_codes.2 ⟨e, he, hec'⟩) _ x
  have hinv : Inv e.alloc (proj e.code l) := by
    have := hl.ginv.inv e.code
    rwa [allocOf_of_mem hl.ginv.nodup he] at this
  unfold State.processGameResult
  simp only
  rw [hgf]
  refine ⟨rfl, ?_, rfl, rfl⟩
  have hgid : Records j.matchupId r j.number := ⟨_, hr.gameId, job_gameId hj⟩
  have hbet : Between mu.player1 mu.player2 r := job_between hj hr.between
  refine ⟨⟨_, hstep, ?_, pickles_append hl.pickle _ hr.pickle, ?_, ?_⟩, h2, h3, ?_, ?_, ?_, ?_, ?_, ?_, ?_⟩
  · intro m
    simp only [proj]
    rw [get_append]
    by_cases hm : m = j.matchupId
    · rw [if_pos hm, if_pos hm.symm]
      simp only [fixedTokens, List.reverse_cons]
      rw [hm]
      exact forall₂_append (hl.recs _) (.cons hgid .nil)
    · rw [if_neg hm, if_neg (Ne.symm hm)]
      exact hl.recs m
  · intro m
    by_cases hm : m = j.matchupId
    · refine ⟨mu.player1, mu.player2, h2.players mu hmu, ?_⟩
      intro x hx
      rw [get_append, if_pos hm] at hx
      rcases List.mem_append.1 hx with hx | hx
      · rw [hjid] at hx; exact h5 mu hmu x hx
      · simp at hx; subst hx; exact hbet
    · rw [get_append, if_neg hm]; exact hl.between m
  · intro m n hm
    rw [halloc]
    split
    · rename_i hme
      have := hl.bound m n hm
      rw [hme, ← hec', allocOf_of_mem hl.ginv.nodup he] at this
      rw [← ha]; exact this
    · exact hl.bound m n hm
  · intro c hc k hk
    rw [keys_append] at hk
    rcases hk with hk | rfl
    · exact h4 c hc k hk
    · rw [hjid, ← h3.comp c hc]; exact List.mem_map.2 ⟨mu, hmu, rfl⟩
  · intro mu' hmu' x hx
    have hx' : x ∈ (t.results.append j.matchupId r).get mu'.id := hx
    rw [get_append] at hx'
    split at hx'
    · rename_i hid
      rcases List.mem_append.1 hx' with hx' | hx'
      · rw [← hid] at hx'; exact h5 mu' hmu' x hx'
      · simp at hx'; subst hx'
        have : mu' = mu := by
          have e1 := matchup_of_id h2 hmu
          have e2 := matchup_of_id h2 hmu'
          rw [hid, hjid, e1] at e2
          exact (Option.some.inj e2).symm
        rw [this]; exact hbet
    · exact h5 mu' hmu' x hx'
  · intro e' he'
    rw [mem_setAlloc] at he'
    rcases he' with ⟨e0, h0, hc, rfl⟩ | ⟨h0, _⟩
    · exact h6 e0 h0
    · exact h6 e' h0
  · intro mu' hmu'
    obtain ⟨e', he', hc, hl'⟩ := h7 mu' hmu'
    by_cases hce : e'.code = j.matchupId
    · exact ⟨{ e' with alloc := a }, mem_setAlloc.2 (Or.inl ⟨e', he', hce, rfl⟩), hc, hl'⟩
    · exact ⟨e', mem_setAlloc.2 (Or.inr ⟨he', hce⟩), hc, hl'⟩
  · intro j' hj'
    refine ⟨(h8 j' (by simp [hj'])).1, ?_⟩
    have h8' := (h8 j' (by simp [hj'])).2
    show j'.number ∈ (allocOf (t.scheduler.setAlloc j.matchupId a) j'.matchupId).outstanding
    rw [halloc]
    split
    · rename_i hm
      rw [← ha]
      rw [hm, ← hec', allocOf_of_mem hl.ginv.nodup he] at h8'
      show j'.number ∈ e.alloc.outstanding.erase j.number
      rw [hinv.nodupO.mem_erase_iff]
      refine ⟨?_, h8'⟩
      intro hn
      rw [List.map_cons, List.nodup_cons] at h9
      apply h9.1
      rw [show j.key = j'.key from Prod.ext hm.symm hn.symm]
      exact List.mem_map_of_mem (f := Job.key) hj'
    · exact h8'
  · rw [List.map_cons, List.nodup_cons] at h9; exact h9.2
  · intro hb m n hn
    have hn' : n ∈ (allocOf (t.scheduler.setAlloc j.matchupId a) m).outstanding := hn
    rw [halloc] at hn'
    split at hn'
    · rename_i hm
      rw [← ha] at hn'
      have hn'' : n ∈ e.alloc.outstanding.erase j.number := hn'
      rw [hinv.nodupO.mem_erase_iff] at hn''
      have := h10 hb m n (by rw [hm, ← hec', allocOf_of_mem hl.ginv.nodup he]; exact hn''.2)
      rw [List.map_cons, List.mem_cons] at this
      rcases this with h | h
      · exact absurd (congrArg Prod.snd h) hn''.1
      · exact h
    · rename_i hm
      have := h10 hb m n hn'
      rw [List.map_cons, List.mem_cons] at this
      rcases this with h | h
      · exact absurd (congrArg Prod.fst h) hm
      · exact h

/-! ### Loading the status -/

theorem checkResults_ok {ms : List Matchup} : ∀ {r r' : Results}, checkResults r ms = .ok r' → Pickles r →
    (∀ m, r'.get m = r.get m) ∧ Pickles r' ∧ (∀ k, k ∈ r'.map Prod.fst ↔ k ∈ r.map Prod.fst ∨ k ∈ ms.map Matchup.id) ∧
    ∀ mu ∈ ms, ∀ x rest, r.get mu.id = x :: rest → samePlayers x mu = true := by
  induction ms with
  | nil =>
    intro r r' h hp
    simp only [checkResults, Except.ok.injEq] at h
    subst h
    exact ⟨fun _ => rfl, hp, fun k => by simp, by simp⟩
  | cons mu ms ih =>
    intro r r' h hp
    unfold checkResults at h
    have hm : checkMatchup r mu = .ok (r.touch mu.id) ∧ ∀ x rest, r.get mu.id = x :: rest → samePlayers x mu = true := by
      cases hc : checkMatchup r mu with
      | error e => rw [hc] at h; simp at h
      | ok r1 =>
        unfold checkMatchup at hc
        rw [get_touch] at hc
        cases hg : r.get mu.id with
        | nil => rw [hg] at hc; simp only [Except.ok.injEq] at hc; rw [hc]; exact ⟨rfl, by simp⟩
        | cons x rest =>
          rw [hg] at hc
          simp only at hc
          split at hc
          · rename_i hs
            simp only [Except.ok.injEq] at hc; rw [hc]
            refine ⟨rfl, ?_⟩
            intro x' rest' he
            simp only [List.cons.injEq] at he
            rw [← he.1]; exact hs
          · simp at hc
    rw [hm.1] at h
    obtain ⟨h1, h2, h3, h4⟩ := ih h (pickles_touch hp mu.id)
    refine ⟨fun m => by rw [h1, get_touch], h2, ?_, ?_⟩
    · intro k
      rw [h3, keys_touch, List.map_cons, List.mem_cons]
      constructor
      · rintro ((h | h) | h)
        · exact Or.inl h
        · exact Or.inr (Or.inl h)
        · exact Or.inr (Or.inr h)
      · rintro (h | h | h)
        · exact Or.inl (Or.inl h)
        · exact Or.inl (Or.inr h)
        · exact Or.inr h
    · intro mu' hmu' x rest hx
      rcases List.mem_cons.1 hmu' with rfl | hmu'
      · exact hm.2 x rest hx
      · exact h4 mu' hmu' x rest (by rw [get_touch]; exact hx)

theorem findGhosts_ok {live : List Str} : ∀ {r : Results} {gs : List Str}, findGhosts live r = .ok gs →
    ∀ k, k ∈ gs ↔ k ∈ r.map Prod.fst ∧ k ∉ live := by
  intro r
  induction r with
  | nil => intro gs h k; simp only [findGhosts, Except.ok.injEq] at h; subst h; simp
  | cons p r ih =>
    obtain ⟨k0, l0⟩ := p
    intro gs h k
    unfold findGhosts at h
    by_cases h0 : k0 ∈ live
    · rw [if_pos h0] at h
      rw [ih h k, List.map_cons, List.mem_cons]
      constructor
      · rintro ⟨h1, h2⟩; exact ⟨Or.inr h1, h2⟩
      · rintro ⟨h1 | h1, h2⟩
        · exact absurd (h1 ▸ h0) h2
        · exact ⟨h1, h2⟩
    · rw [if_neg h0] at h
      split at h
      · simp at h
      · cases hg : findGhosts live r with
        | error e => rw [hg] at h; simp at h
        | ok g =>
          rw [hg] at h
          simp only [Except.ok.injEq] at h
          rw [← h, List.mem_cons, ih hg k, List.map_cons, List.mem_cons]
          constructor
          · rintro (rfl | ⟨h1, h2⟩)
            · exact ⟨Or.inl rfl, h0⟩
            · exact ⟨Or.inr h1, h2⟩
          · rintro ⟨rfl | h1, h2⟩
            · exact Or.inl rfl
            · exact Or.inr ⟨h1, h2⟩

/-- Priorities and limits in the scheduler. -/
theorem setGroups_limits (old : Sched.Group Str) (specs : List (Str × Option Int)) (hn : (specs.map Prod.fst).Nodup) :
    (∀ e ∈ Group.setGroups old specs, (e.code, e.limit) ∈ specs) ∧
    (∀ p ∈ specs, ∃ e ∈ Group.setGroups old specs, e.code = p.1 ∧ e.limit = p.2) := by
  have h := setGroupsAux_nodup old specs 0 [] (by simpa [Group.codes] using hn)
  unfold Group.setGroups
  rw [h, List.nil_append]
  constructor
  · intro e he
    rw [List.mem_map] at he
    obtain ⟨⟨p, k⟩, hp, rfl⟩ := he
    exact List.fst_mem_of_mem_zipIdx hp
  · intro p hp
    obtain ⟨k, hk, rfl⟩ := List.getElem_of_mem hp
    refine ⟨_, List.mem_map.2 ⟨(specs[k], k), ?_, rfl⟩, rfl, rfl⟩
    rw [List.mem_zipIdx_iff_getElem?]
    exact List.getElem?_eq_getElem hk

/-- A new state: nothing has been handed out, so the invariant needs nothing of jobs. -/
theorem core_of_specs {P : Params} {c : Comp} {t : State} {g0 : Sched.Group Str} {l0 : List (GEv Str)} {r0 : Results} (hc : GoodComp c)
    (hf : P.Fits c) (h0 : TInv P g0 r0 l0) (hcomp : t.comp = c)
    (hnd : t.ghosts.Nodup)
    (hsched : t.scheduler = (Group.setGroups g0 (groupSpecs c t.ghosts)).rollback)
    (hget : ∀ m, t.results.get m = r0.get m) (hpick : Pickles t.results)
    (hghosts : ∀ k, k ∈ t.ghosts ↔ k ∈ t.results.map Prod.fst ∧ k ∉ c.matchups.map Matchup.id)
    (hkeys : ∀ c, P.comp = some c → ∀ k ∈ t.results.map Prod.fst, k ∈ c.matchups.map Matchup.id)
    (hbet : ∀ mu ∈ c.matchups, ∀ r ∈ t.results.get mu.id, Between mu.player1 mu.player2 r) : Core P t [] false := by
  have hcodes : (groupSpecs c t.ghosts).map Prod.fst = c.matchups.map Matchup.id ++ t.ghosts := by
    unfold groupSpecs
    rw [List.map_append, List.map_map, List.map_map]
    congr 1
    exact List.map_id _
  have hnodup : ((groupSpecs c t.ghosts).map Prod.fst).Nodup := by
    rw [hcodes, List.nodup_append]
    refine ⟨hc.ids, hnd, ?_⟩
    intro a ha b hb hab
    exact ((hghosts b).1 hb).2 (hab ▸ ha)
  obtain ⟨hlim1, hlim2⟩ := setGroups_limits g0 _ hnodup
  have hstep := ginv_step (ginv_step (p := (g0, l0)) h0.ginv (.setGroups (groupSpecs c t.ghosts))) .rollback
  simp only [gstepLog] at hstep
  rw [← hsched] at hstep
  have halloc : ∀ x, allocOf t.scheduler x
      = if x ∈ (groupSpecs c t.ghosts).map Prod.fst then (allocOf g0 x).rollback else Simple.init.rollback := by
    intro x
    rw [hsched]
    show allocOf (List.map (fun e : GEntry Str => ({ e with alloc := e.alloc.rollback } : GEntry Str)) _) x = _
    rw [allocOf_map Simple.rollback rfl, allocOf_setGroups]
    split <;> rfl
  refine ⟨⟨_, hstep, ?_, hpick, fun m => by rw [hget]; exact h0.between m, ?_⟩, hcomp ▸ hc, hcomp ▸ hf, hkeys, hcomp ▸ hbet,
    ?_, ?_, by simp, by simp, ?_⟩
  · intro m
    rw [hget]
    simp only [proj, fixedTokens]
    split
    · exact h0.recs m
    · rename_i hm
      have : m ∉ t.results.map Prod.fst := by
        intro hk
        rw [hcodes, List.mem_append, not_or] at hm
        exact hm.2 ((hghosts m).2 ⟨hk, hm.1⟩)
      rw [← hget, get_of_not_mem this]
      exact .nil
  · intro m n hm
    rw [halloc]
    split
    · exact h0.bound m n hm
    · simp [Simple.init, Simple.rollback]
  · intro e he
    rw [hsched] at he
    simp only [Group.rollback, List.mem_map] at he
    obtain ⟨e0, h0, rfl⟩ := he
    have := hlim1 e0 h0
    unfold groupSpecs at this
    rw [List.mem_append, List.mem_map, List.mem_map] at this
    rw [hcomp]
    rcases this with ⟨mu, hmu, he⟩ | ⟨g, _, he⟩
    · exact Or.inl ⟨mu, hmu, congrArg Prod.fst he, congrArg Prod.snd he⟩
    · exact Or.inr (congrArg Prod.snd he).symm
  · intro mu hmu
    rw [hcomp] at hmu
    obtain ⟨e, he, h1, h2⟩ := hlim2 (mu.id, mu.numberOfGames) (by
      unfold groupSpecs
      rw [List.mem_append, List.mem_map]
      exact Or.inl ⟨mu, hmu, rfl⟩)
    refine ⟨{ e with alloc := e.alloc.rollback }, ?_, h1, h2⟩
    rw [hsched]
    exact List.mem_map.2 ⟨e, he, rfl⟩
  · intro _ m n hn
    rw [halloc] at hn
    split at hn <;> simp [Simple.rollback] at hn

theorem findGhosts_nodup {live : List Str} : ∀ {r : Results} {gs : List Str}, findGhosts live r = .ok gs →
    (r.map Prod.fst).Nodup → gs.Nodup := by
  intro r
  induction r with
  | nil => intro gs h _; simp only [findGhosts, Except.ok.injEq] at h; subst h; simp
  | cons p r ih =>
    obtain ⟨k0, l0⟩ := p
    intro gs h hn
    have hall := findGhosts_ok h
    unfold findGhosts at h
    rw [List.map_cons, List.nodup_cons] at hn
    by_cases h0 : k0 ∈ live
    · rw [if_pos h0] at h; exact ih h hn.2
    · rw [if_neg h0] at h
      split at h
      · simp at h
      · cases hg : findGhosts live r with
        | error e => rw [hg] at h; simp at h
        | ok g =>
          rw [hg] at h
          simp only [Except.ok.injEq] at h
          rw [← h, List.nodup_cons]
          refine ⟨?_, ih hg hn.2⟩
          intro hk
          exact hn.1 ((findGhosts_ok hg k0).1 hk).1

theorem tinv_init (P : Params) : TInv P [] [] [] :=
  ⟨⟨by simp [Group.codes], by simp, fun _ => inv_init⟩, fun _ => .nil, ⟨by simp, by simp⟩,
    fun _ => ⟨['a'], ['b'], by decide, by simp [Results.get]⟩, fun _ _ _ => by simp [allocOf, Group.find, Simple.init]⟩

theorem core_clean {P : Params} {c : Comp} (hc : GoodComp c) (hf : P.Fits c) : Core P (State.clean c) [] false := by
  refine core_of_specs hc hf (tinv_init P) rfl (by simp [State.clean]) ?_ (fun _ => rfl) (tinv_init P).pickle ?_ ?_ ?_
  · unfold State.clean
    simp only
    have hs := sginv_setGroups ([] : Sched.Group Str) (groupSpecs c [])
    unfold Group.rollback
    conv => lhs; rw [← List.map_id (Group.setGroups [] (groupSpecs c []))]
    apply List.map_congr_left
    intro e he
    have : e.alloc = Simple.init := by rw [hs.alloc e he]; rfl
    obtain ⟨ec, ea, el, ep⟩ := e
    simp only at this
    subst this
    rfl
  · intro k; simp [State.clean]
  · intro c _ k hk; simp [State.clean] at hk
  · intro mu _ r hr; simp [State.clean, Results.get] at hr

theorem samePlayers_between {x : GameResult} {mu : Matchup} {p q : Str} (h : samePlayers x mu = true) (hb : Between p q x)
    (r : GameResult) (hr : Between p q r) : Between mu.player1 mu.player2 r := by
  obtain ⟨h1, _, _, h4⟩ := hb
  obtain ⟨r1, r2, r3, r4⟩ := hr
  refine ⟨r1, r2, r3, ?_⟩
  unfold samePlayers at h
  rw [h1] at h
  simp only [Bool.or_eq_true, Bool.and_eq_true, decide_eq_true_eq] at h
  rcases h with ⟨a, b⟩ | ⟨a, b⟩ <;> rcases h4 with ⟨c, d⟩ | ⟨c, d⟩ <;> rw [← a, ← b, c, d]
  · exact r4
  · exact r4.symm
  · exact r4.symm
  · exact r4

theorem core_load {P : Params} {c : Comp} {s : Saved} {t : State} {v : Nat} (hc : GoodComp c) (hf : P.Fits c)
    (hd : DiskOk P (some (v, s))) (h : State.load c s = .ok t) :
    Core P t [] false ∧ ∀ m, t.results.get m = s.loadResults.get m := by
  obtain ⟨⟨l, hl⟩, hcomp⟩ := hd v s rfl
  unfold State.load at h
  split at h
  · simp at h
  split at h
  · simp at h
  rename_i r hr
  split at h
  · simp at h
  rename_i gs hgs
  simp only [Except.ok.injEq] at h
  subst h
  obtain ⟨h1, h2, h3, h4⟩ := checkResults_ok hr hl.pickle
  refine ⟨core_of_specs hc hf hl rfl (findGhosts_nodup hgs h2.nodup) ?_ h1 h2 (findGhosts_ok hgs) ?_ ?_, h1⟩
  · show Group.rollback (Group.setGroups s.scheduler.reload _) = _
    rw [reload_eq hl.ginv]
  · intro c' hc' k hk
    rcases (h3 k).1 hk with hk | hk
    · exact (hcomp c' hc').keys k hk
    · rw [← hf.comp c' hc']; exact hk
  · intro mu hmu x hx
    have hx' : x ∈ r.get mu.id := hx
    rw [h1] at hx'
    obtain ⟨p, q, _, hb⟩ := hl.between mu.id
    cases hg : s.loadResults.get mu.id with
    | nil => rw [hg] at hx'; simp at hx'
    | cons y rest =>
      exact samePlayers_between (h4 mu hmu y rest hg) (hb y (by rw [hg]; simp)) x (hb x hx')

/-- With the same control file, the status can always be loaded. -/
theorem load_same {P : Params} {c : Comp} {s : Saved} {v : Nat} (hP : P.comp = some c) (hd : DiskOk P (some (v, s))) :
    ∃ t, State.load c s = .ok t := by
  obtain ⟨⟨l, hl⟩, hcomp⟩ := hd v s rfl
  obtain ⟨k1, k2, k3⟩ := hcomp c hP
  have hcc : checkCompetitors c s = .ok () := by
    unfold checkCompetitors
    rw [k1]
    cases c.competitors with
    | none => rfl
    | some cs => simp
  have hcr : ∀ (ms : List Matchup) (r : Results), (∀ mu ∈ ms, ∀ x ∈ r.get mu.id, Between mu.player1 mu.player2 x) →
      ∃ r', checkResults r ms = .ok r' := by
    intro ms
    induction ms with
    | nil => intro r _; exact ⟨r, rfl⟩
    | cons mu ms ih =>
      intro r hr
      have hm : checkMatchup r mu = .ok (r.touch mu.id) := by
        unfold checkMatchup
        rw [get_touch]
        cases hg : r.get mu.id with
        | nil => rfl
        | cons x rest =>
          obtain ⟨b1, _, _, b4⟩ := hr mu (by simp) x (by rw [hg]; simp)
          have : samePlayers x mu = true := by
            unfold samePlayers
            rw [b1]
            rcases b4 with ⟨a, b⟩ | ⟨a, b⟩ <;> simp [a, b]
          simp only [this, if_true]
      obtain ⟨r', hr'⟩ := ih (r.touch mu.id) (fun mu' hmu' x hx => hr mu' (by simp [hmu']) x (by rwa [get_touch] at hx))
      exact ⟨r', by unfold checkResults; rw [hm]; exact hr'⟩
  obtain ⟨r', hr'⟩ := hcr c.matchups s.loadResults k3
  have hkeys := (checkResults_ok hr' hl.pickle).2.2.1
  have hfg : ∀ (r : Results), (∀ k ∈ r.map Prod.fst, k ∈ c.matchups.map Matchup.id) →
      findGhosts (c.matchups.map Matchup.id) r = .ok [] := by
    intro r
    induction r with
    | nil => intro _; rfl
    | cons p r ih =>
      obtain ⟨k, l⟩ := p
      intro h
      unfold findGhosts
      rw [if_pos (h k (by simp))]
      exact ih (fun k' hk' => h k' (by simp only [List.map_cons, List.mem_cons]; exact Or.inr hk'))
  have hg := hfg r' (fun k hk => by
    rcases (hkeys k).1 hk with h | h
    · exact k2 k h
    · exact h)
  unfold State.load
  rw [hcc]
  simp only
  rw [hr']
  simp only
  rw [hg]
  exact ⟨_, rfl⟩

end Gomill.Tourn
