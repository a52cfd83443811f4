import Verif.Spec.FullRun
import Verif.Lemmas.RunComp
import Verif.Props.Ringmaster
import Verif.Props.Reports
/-
C85: from the control file, through any history of runs, to the report.
-/
namespace Gomill.Conf
open Py Spec

/-- All the runs used control files for playoffs which were accepted. -/
def PlayoffRuns (events : List Tourn.Event) : Prop :=
  ∀ ctl mg disp w, Tourn.Event.start ctl mg disp w ∈ events → ∀ comp, ctl.initialise = .ok comp →
    ∃ (W : World) (base : Option Str) (code : Str) (config : List (Str × Val)) (p : Playoff), PythonOK W ∧ initPlayoff W base code config = .ok p ∧ comp = p.comp

/-- C85: whatever has happened, the results saved for a matchup are those of different games of it, each played as one of the control files said. -/
theorem C85_games (events : List Tourn.Event) (k : Str) :
    ∃ ns : List Nat, ns.Nodup ∧ List.Forall₂ (fun r n => ∃ ctl mg disp w comp, Tourn.Event.start ctl mg disp w ∈ events ∧ ctl.initialise = .ok comp ∧
      ∃ mu ∈ comp.matchups, mu.id = k ∧ ∃ x, r = (mu.job n).result x) ((Tourn.World.after events).saved k) ns := by
  obtain ⟨ns, h1, h2⟩ := Tourn.C36_distinct events k
  refine ⟨ns, h1, ?_⟩
  have hj := Tourn.saved_jobs events k
  generalize (Tourn.World.after events).saved k = l at h2 hj
  clear h1
  induction h2 with
  | nil => exact .nil
  | @cons r n l ns h _ ih =>
    refine .cons ?_ (ih (fun r hr => hj r (List.mem_cons_of_mem _ hr)))
    obtain ⟨ctl, mg, disp, w, comp, a1, a2, mu, hmu, hid, n', x, he⟩ := hj r List.mem_cons_self
    refine ⟨ctl, mg, disp, w, comp, a1, a2, mu, hmu, hid, x, ?_⟩
    obtain ⟨gid, hg, hgid⟩ := h
    have hg' : r.gameId = some (mu.makeGameId n') := by
      rw [he]
      show some (mu.job n').gameId = _
      rw [(Tourn.job_fields mu n').2.2]
    have : gid = mu.makeGameId n' := Option.some.inj (hg.symm.trans hg')
    rw [this, ← hid] at hgid
    have := (Tourn.gameIdOf_inj hgid (Tourn.gameIdOf_make mu n')).2
    rw [this]; exact he

/-! ### Loading the status -/

theorem get_of_mem {r : Tourn.Results} (hn : (r.map Prod.fst).Nodup) {k : Str} {l : List GameResult} (h : (k, l) ∈ r) : r.get k = l := by
  unfold Tourn.Results.get
  rw [lookup_of_mem hn h]

theorem get_ne {r : Tourn.Results} {k : Str} (h : r.get k ≠ []) : k ∈ r.map Prod.fst := by
  by_contra hc
  apply h
  unfold Tourn.Results.get
  rw [(lookup_none _ _).2 hc]

theorem ghosts_nonempty {live : List Str} : ∀ {r : Tourn.Results} {gs : List Str}, Tourn.findGhosts live r = .ok gs → ∀ k l, (k, l) ∈ r → k ∉ live → l ≠ [] := by
  intro r
  induction r with
  | nil => intro gs _ k l h; cases h
  | cons p r ih =>
    obtain ⟨k0, l0⟩ := p
    intro gs h k l hm hl
    unfold Tourn.findGhosts at h
    split at h
    · rename_i h0
      rcases List.mem_cons.1 hm with he | hm
      · injection he with h1 h2; subst h1; exact absurd h0 hl
      · exact ih h k l hm hl
    · split at h
      · cases h
      · rename_i h1
        rcases List.mem_cons.1 hm with he | hm
        · injection he with _ h2; subst h2; exact h1
        · cases hg : Tourn.findGhosts live r with
          | error e => rw [hg] at h; cases h
          | ok g => exact ih hg k l hm hl

/-- What's loaded. -/
theorem load_facts {P : Tourn.Params} {c : Tourn.Comp} {s : Tourn.Saved} {t : Tourn.State} {v : Nat} (hd : Tourn.DiskOk P (some (v, s))) (h : Tourn.State.load c s = .ok t) :
    (t.results.map Prod.fst).Nodup ∧ t.ghosts.Nodup ∧ ∀ g, g ∈ t.ghosts ↔ t.results.get g ≠ [] ∧ g ∉ c.matchups.map Tourn.Matchup.id := by
  obtain ⟨⟨l, hl⟩, _⟩ := hd v s rfl
  unfold Tourn.State.load at h
  split at h
  · cases h
  split at h
  · cases h
  rename_i r hr
  split at h
  · cases h
  rename_i gs hgs
  injection h with h
  subst h
  obtain ⟨h1, h2, h3, h4⟩ := Tourn.checkResults_ok hr hl.pickle
  refine ⟨h2.nodup, Tourn.findGhosts_nodup hgs h2.nodup, ?_⟩
  intro g
  show g ∈ gs ↔ r.get g ≠ [] ∧ _
  rw [Tourn.findGhosts_ok hgs g]
  constructor
  · rintro ⟨a, b⟩
    obtain ⟨⟨k, l⟩, hm, rfl⟩ := List.mem_map.1 a
    refine ⟨?_, b⟩
    rw [get_of_mem h2.nodup hm]
    exact ghosts_nonempty hgs k l hm b
  · rintro ⟨a, b⟩
    exact ⟨get_ne a, b⟩

/-- The results of jobs between two players are as the reports need them to be. -/
theorem resultsOf_jobs {p q : Str} {l : List GameResult} (hb : ∀ r ∈ l, Tourn.Between p q r) (hj : ∀ r ∈ l, ∃ (j : Tourn.Job) (x : Tourn.Outcome), r = j.result x) : ResultsOf p q l := by
  refine ⟨hb, ?_⟩
  intro r hr
  obtain ⟨j, x, rfl⟩ := hj r hr
  obtain ⟨_, _, _, h⟩ := hb _ hr
  have hB : ((j.result x).cpuTimes.lookup j.playerB).isSome = true := by
    show (List.lookup _ [(_, _), (_, _)]).isSome = true
    rw [List.lookup_cons_self]; rfl
  have hw : ((j.result x).cpuTimes.lookup j.playerW).isSome = true := by
    show (List.lookup _ [(_, _), (_, _)]).isSome = true
    rw [List.lookup_cons]
    split
    · rfl
    · rw [List.lookup_cons_self]; rfl
  have h' : (j.playerB = p ∧ j.playerW = q) ∨ (j.playerB = q ∧ j.playerW = p) := h
  rcases h' with ⟨rfl, rfl⟩ | ⟨rfl, rfl⟩
  · exact ⟨hB, hw⟩
  · exact ⟨hw, hB⟩

theorem saved_results (events : List Tourn.Event) (k : Str) : ∀ r ∈ (Tourn.World.after events).saved k, ∃ (j : Tourn.Job) (x : Tourn.Outcome), r = j.result x := by
  intro r hr
  obtain ⟨_, _, _, _, _, _, _, mu, _, _, n, x, h⟩ := Tourn.saved_jobs events k r hr
  exact ⟨_, x, h⟩

/-- Loading a saved status. -/
theorem loaded (events : List Tourn.Event) {c : Tourn.Comp} (hc : Tourn.GoodComp c) {v : Nat} {s : Tourn.Saved} (hd : (Tourn.World.after events).disk = some (v, s)) {t : Tourn.State}
    (ht : Tourn.State.load c s = .ok t) :
    (∀ k, t.results.get k = (Tourn.World.after events).saved k) ∧ (t.results.map Prod.fst).Nodup ∧ t.ghosts.Nodup ∧
    (∀ g, g ∈ t.ghosts ↔ (Tourn.World.after events).saved g ≠ [] ∧ g ∉ c.matchups.map Tourn.Matchup.id) ∧
    ∀ mu ∈ c.matchups, ResultsOf mu.player1 mu.player2 ((Tourn.World.after events).saved mu.id) := by
  have hw := (Tourn.winv_after (P := Tourn.noParams) events (fun ev _ => Tourn.ok_noParams ev)).disk
  rw [hd] at hw
  have hfit : Tourn.Params.Fits Tourn.noParams c := ⟨fun _ _ _ h => (by cases h), fun _ h => (by cases h)⟩
  obtain ⟨h1, h2⟩ := Tourn.core_load hc hfit hw ht
  have hcomp : t.comp = c := by
    unfold Tourn.State.load at ht
    split at ht
    · cases ht
    split at ht
    · cases ht
    split at ht
    · cases ht
    injection ht with ht; rw [← ht]
  have hs : ∀ k, t.results.get k = (Tourn.World.after events).saved k := by
    intro k
    rw [h2]
    unfold Tourn.World.saved
    rw [hd]; rfl
  obtain ⟨f1, f2, f3⟩ := load_facts hw ht
  refine ⟨hs, f1, f2, fun g => by rw [f3, hs], ?_⟩
  intro mu hmu
  refine resultsOf_jobs ?_ (saved_results events mu.id)
  intro r hr
  rw [← hs] at hr
  exact h1.between mu (hcomp ▸ hmu) r hr

/-! ### Playoffs -/

theorem playoff_plain {W : World} (hW : PythonOK W) {base : Option Str} {code : Str} {config : List (Str × Val)} {p : Playoff} (h : initPlayoff W base code config = .ok p) :
    ∀ m ∈ p.matchups, Tab.Spec.Plain m.player1 ∧ Tab.Spec.Plain m.player2 ∧ m.player1 ≠ m.player2 := by
  obtain ⟨hcode, _, _, hf, hin, _, ⟨players0, h0, hcl, _⟩, _⟩ := C75_accepted W hW base code config p h
  have pl : ∀ q ∈ p.players.map Prod.fst, Tab.Spec.Plain q := by
    intro q hq
    cases hl : p.players.lookup q with
    | none => exact absurd hq ((lookup_none _ _).1 hl)
    | some x => exact clone_plain hcl (fun c p hc => (original_facts hW h0 c p hc).1) _ q (Nat.le_refl _) x hl
  exact fun m hm => ⟨pl _ (hin m hm).1, pl _ (hin m hm).2, (hf m hm).different⟩

/-- What a ghost matchup's results are. -/
theorem goodGhost {events : List Tourn.Event} (hruns : PlayoffRuns events) {results : Tourn.Results} (hs : ∀ k, results.get k = (Tourn.World.after events).saved k) {g : Str}
    (hg : (Tourn.World.after events).saved g ≠ []) : GoodGhost results g := by
  obtain ⟨p, q, hpq, hb⟩ := Tourn.C36_players events g
  cases hl : (Tourn.World.after events).saved g with
  | nil => exact absurd hl hg
  | cons r rest =>
    have hr : r ∈ (Tourn.World.after events).saved g := by rw [hl]; exact List.mem_cons_self
    obtain ⟨ctl, mg, disp, w, comp, a1, a2, mu, hmu, hid, n, x, he⟩ := Tourn.saved_jobs events g r hr
    obtain ⟨W, base, code, config, pl, hW, hp, hcomp⟩ := hruns ctl mg disp w a1 comp a2
    rw [hcomp] at hmu
    obtain ⟨m, hm, rfl⟩ := List.mem_map.1 hmu
    obtain ⟨p1, p2, p3⟩ := playoff_plain hW hp m hm
    have hpl : (r.playerB = m.player1 ∧ r.playerW = m.player2) ∨ (r.playerB = m.player2 ∧ r.playerW = m.player1) := by
      rw [he]
      show ((m.core.job n).playerB = m.player1 ∧ (m.core.job n).playerW = m.player2) ∨ ((m.core.job n).playerB = m.player2 ∧ (m.core.job n).playerW = m.player1)
      unfold Tourn.Matchup.job
      split
      · exact .inr ⟨rfl, rfl⟩
      · exact .inl ⟨rfl, rfl⟩
    refine ⟨r, rest, by rw [hs, hl], ?_, ?_, ?_, ?_⟩
    · rcases hpl with ⟨e1, e2⟩ | ⟨e1, e2⟩
      · rw [e1, e2]; exact p3
      · rw [e1, e2]; exact p3.symm
    · rcases hpl with ⟨e1, _⟩ | ⟨e1, _⟩ <;> rw [e1] <;> assumption
    · rcases hpl with ⟨_, e1⟩ | ⟨_, e1⟩ <;> rw [e1] <;> assumption
    · rw [hs]
      refine resultsOf_jobs ?_ (saved_results events g)
      intro r' hr'
      obtain ⟨b1, b2, b3, b4⟩ := hb r' hr'
      obtain ⟨_, _, _, c4⟩ := hb r hr
      refine ⟨b1, b2, b3, ?_⟩
      rcases c4 with ⟨rfl, rfl⟩ | ⟨rfl, rfl⟩
      · exact b4
      · exact b4.symm

theorem playoff_good {W : World} (hW : PythonOK W) {base : Option Str} {code : Str} {config : List (Str × Val)} {p : Playoff} (h : initPlayoff W base code config = .ok p) :
    Tourn.GoodComp p.comp := by
  obtain ⟨_, _, _, hc⟩ := C75_control W hW base code config p h
  exact Tourn.goodComp hc

/-- C85: a playoff's report, after any history of runs (with crashes, failed games and so on), each with a control file for a playoff: if the status can be loaded with the present
control file, the report is written, and it says what's saved. -/
theorem C85_playoff (W : World) (hW : PythonOK W) (F : Fmt) (hF : Spec.Fmt.Ok F) (base : Option Str) (code : Str) (config : List (Str × Val)) (p : Playoff)
    (h : initPlayoff W base code config = .ok p) (events : List Tourn.Event) (hruns : PlayoffRuns events) (descriptions : List (Str × Str)) :
    (∀ e, reportPlayoff F p (Tourn.World.after events).disk descriptions = .error e →
      ((Tourn.World.after events).disk = none ∧ e = .noStatusFile) ∨
      ∃ v s e', (Tourn.World.after events).disk = some (v, s) ∧ Tourn.State.load p.comp s = .error e' ∧ e = .load e') ∧
    ∀ lines, reportPlayoff F p (Tourn.World.after events).disk descriptions = .ok lines → PlayoffReport F p (Tourn.World.after events).saved descriptions lines := by
  have key : ∀ v s t, (Tourn.World.after events).disk = some (v, s) → Tourn.State.load p.comp s = .ok t →
      ∃ lines, playoffReport F p t.results t.ghosts descriptions = .ok lines ∧ PlayoffReport F p (Tourn.World.after events).saved descriptions lines := by
    intro v s t hd ht
    obtain ⟨hs, _, g1, g2, hres⟩ := loaded events (playoff_good hW h) hd ht
    obtain ⟨blocks, ghostBlocks, ghosts', players, b1, b2, b3, b4, b5, b6, b7⟩ := C82_playoff W hW F hF base code config p h t.results t.ghosts descriptions
      (fun m hm => by rw [hs]; exact hres m.core (List.mem_map_of_mem hm)) (fun g hg => goodGhost hruns hs ((g2 g).1 hg).1)
    refine ⟨_, b7, ⟨blocks, ghostBlocks, ghosts', players, ?_, b2.nodup_iff.2 g1, b3, ?_, ?_, b5, b6, ?_⟩⟩
    · have e1 : (fun m b => IsBlock F m.name m.numberOfGames (m.details F) m.player1 m.player2 ((Tourn.World.after events).saved m.id) b) = MatchupBlock F t.results := by
        funext m b; unfold MatchupBlock; rw [hs]
      have e2 : (fun m : Matchup => decide ((Tourn.World.after events).saved m.id ≠ [])) = fun m => decide (t.results.get m.id ≠ []) := by
        funext m; rw [hs]
      rw [e1, e2]; exact b1
    · intro g
      rw [b2.mem_iff, g2]
      refine and_congr_right (fun _ => ?_)
      constructor
      · intro hn m hm he
        exact hn (List.mem_map.2 ⟨m.core, List.mem_map_of_mem hm, he⟩)
      · intro hn hm
        obtain ⟨mu, hmu, he⟩ := List.mem_map.1 hm
        obtain ⟨m, hm', rfl⟩ := List.mem_map.1 hmu
        exact hn m hm' he
    · have e1 : (fun g b => ∃ r rest, (Tourn.World.after events).saved g = r :: rest ∧
          IsBlock F (r.playerB ++ " v ".toList ++ r.playerW) none "?? (missing from control file)".toList r.playerB r.playerW ((Tourn.World.after events).saved g) b) =
          GhostBlock F t.results := by
        funext g b; unfold GhostBlock; rw [hs]
      rw [e1]; exact b4
    · rw [(C75_accepted W hW base code config p h).1]
  cases hd : (Tourn.World.after events).disk with
  | none =>
    refine ⟨?_, ?_⟩
    · intro e he; injection he with he; exact .inl ⟨rfl, he.symm⟩
    · intro lines he; cases he
  | some y =>
    obtain ⟨v, s⟩ := y
    cases ht : Tourn.State.load p.comp s with
    | error e' =>
      refine ⟨?_, ?_⟩
      · intro e he
        unfold reportPlayoff at he
        simp only [ht] at he
        injection he with he
        exact .inr ⟨v, s, e', rfl, ht, he.symm⟩
      · intro lines he
        unfold reportPlayoff at he
        simp only [ht] at he
        cases he
    | ok t =>
      obtain ⟨lines, hl, hr⟩ := key v s t hd ht
      have hrep : reportPlayoff F p (some (v, s)) descriptions = .ok lines := by
        unfold reportPlayoff
        simp only [ht, hl]
        rfl
      refine ⟨?_, ?_⟩
      · intro e he; rw [hrep] at he; cases he
      · intro lines' he
        rw [hrep] at he
        injection he with he
        rw [← he]; exact hr

/-- With the same control file, the status can be loaded. -/
theorem same_loads {comp : Tourn.Comp} {events : List Tourn.Event} (h : SameRuns comp events) {v : Nat} {s : Tourn.Saved} (hd : (Tourn.World.after events).disk = some (v, s)) :
    ∃ t, Tourn.State.load comp s = .ok t := by
  let P : Tourn.Params := ⟨fun _ => none, some comp⟩
  have hwi : Tourn.WInv P (Tourn.World.after events) := by
    refine Tourn.winv_after events ?_
    intro ev hev
    cases ev with
    | start ctl' mg disp w =>
      intro comp' hc'
      have := h ctl' mg disp w hev
      rw [hc'] at this
      injection this with this
      exact ⟨fun _ _ _ h => (by cases h), fun c' h => (by injection h with h; rw [this, h])⟩
    | step s => trivial
    | down => trivial
  have := hwi.disk
  rw [hd] at this
  exact Tourn.load_same (P := P) (c := comp) rfl this

/-- C85: if all the runs used this control file, and a status has been saved, then the report can be made. -/
theorem C85_playoff_same (W : World) (hW : PythonOK W) (F : Fmt) (hF : Spec.Fmt.Ok F) (base : Option Str) (code : Str) (config : List (Str × Val)) (p : Playoff)
    (h : initPlayoff W base code config = .ok p) (events : List Tourn.Event) (hsame : SameRuns p.comp events) (descriptions : List (Str × Str))
    (hd : (Tourn.World.after events).disk ≠ none) :
    ∃ lines, reportPlayoff F p (Tourn.World.after events).disk descriptions = .ok lines ∧ PlayoffReport F p (Tourn.World.after events).saved descriptions lines := by
  have hruns : PlayoffRuns events := by
    intro ctl mg disp w hev comp hc
    rw [hsame ctl mg disp w hev] at hc
    injection hc with hc
    exact ⟨W, base, code, config, p, hW, h, hc.symm⟩
  obtain ⟨h1, h2⟩ := C85_playoff W hW F hF base code config p h events hruns descriptions
  cases hr : reportPlayoff F p (Tourn.World.after events).disk descriptions with
  | ok lines => exact ⟨lines, rfl, h2 lines hr⟩
  | error e =>
    rcases h1 e hr with ⟨h, _⟩ | ⟨v, s, e', h, h', _⟩
    · exact absurd h hd
    · obtain ⟨t, ht⟩ := same_loads hsame h
      rw [h'] at ht; cases ht

/-! ### All-play-alls -/

theorem round_good {W : World} (hW : PythonOK W) {base : Option Str} {code : Str} {config : List (Str × Val)} {a : Allplayall} (h : initAllplayall W base code config = .ok a) :
    Tourn.GoodComp a.comp := by
  obtain ⟨_, _, hc⟩ := C76_control W hW.matchups base code config a h
  exact Tourn.goodComp hc

theorem total_is {results : Tourn.Results} {saved : Str → List GameResult} (hs : ∀ k, results.get k = saved k) (hn : (results.map Prod.fst).Nodup) :
    TotalIs saved (resultCount results) := by
  refine ⟨results.map Prod.fst, hn, ?_, ?_⟩
  · intro k hk
    rw [← hs] at hk
    exact get_ne hk
  · unfold resultCount
    rw [List.map_map]
    congr 1
    refine List.map_congr_left ?_
    rintro ⟨k, l⟩ hm
    show l.length = (saved k).length
    rw [← hs, get_of_mem hn hm]

/-- C85: an all-play-all's report, after any history of runs, whatever control files they used: if the status can be loaded with the present control file, the report is written, and
it says what's saved. -/
theorem C85_allplayall (W : World) (hW : PythonOK W) (F : Fmt) (hF : Spec.Fmt.Ok F) (base : Option Str) (code : Str) (config : List (Str × Val)) (a : Allplayall)
    (h : initAllplayall W base code config = .ok a) (h2 : 2 ≤ a.competitors.length) (events : List Tourn.Event) (descriptions : List (Str × Str)) :
    (∀ e, reportAllplayall F a (Tourn.World.after events).disk descriptions = .error e →
      ((Tourn.World.after events).disk = none ∧ e = .noStatusFile) ∨
      ∃ v s e', (Tourn.World.after events).disk = some (v, s) ∧ Tourn.State.load a.comp s = .error e' ∧ e = .load e') ∧
    ∀ lines, reportAllplayall F a (Tourn.World.after events).disk descriptions = .ok lines →
      ∃ r, RulesOf W (fun n => config.lookup n) r ∧ AllplayallReport F a r.rounds (Tourn.World.after events).saved descriptions lines := by
  have key : ∀ v s t, (Tourn.World.after events).disk = some (v, s) → Tourn.State.load a.comp s = .ok t →
      ∃ lines, allplayallReport F a t.results descriptions = .ok lines ∧
        ∃ r, RulesOf W (fun n => config.lookup n) r ∧ AllplayallReport F a r.rounds (Tourn.World.after events).saved descriptions lines := by
    intro v s t hd ht
    obtain ⟨hs, hn, _, _, hres⟩ := loaded events (round_good hW h) hd ht
    obtain ⟨r, tab, tableLines, blocks, players, b1, b2, b3, b4, b5, b6, b7⟩ := C82_allplayall_report W hW F hF base code config a h h2 t.results descriptions
      (fun m hm => by rw [hs]; exact hres m.core (List.mem_map_of_mem hm))
    obtain ⟨_, _, _, _, h0, _⟩ := initAllplayall_iff.1 h
    have hcode := ((C76_allplayall W hW.matchups base code config _ _ h0 a).1 h).1
    refine ⟨_, b7, r, b1, ⟨t.results, resultCount t.results, tab, tableLines, blocks, players, hs, total_is hs hn, b2, b3, ?_, b5, b6, ?_⟩⟩
    · have e1 : (fun m b => IsBlock F m.name m.numberOfGames (m.details F) m.player1 m.player2 ((Tourn.World.after events).saved m.id) b) = MatchupBlock F t.results := by
        funext m b; unfold MatchupBlock; rw [hs]
      have e2 : (fun m : Matchup => decide ((Tourn.World.after events).saved m.id ≠ [])) = fun m => decide (t.results.get m.id ≠ []) := by
        funext m; rw [hs]
      rw [e1, e2]; exact b4
    · rw [hcode]
  cases hd : (Tourn.World.after events).disk with
  | none =>
    refine ⟨?_, ?_⟩
    · intro e he; injection he with he; exact .inl ⟨rfl, he.symm⟩
    · intro lines he; cases he
  | some y =>
    obtain ⟨v, s⟩ := y
    cases ht : Tourn.State.load a.comp s with
    | error e' =>
      refine ⟨?_, ?_⟩
      · intro e he
        unfold reportAllplayall at he
        simp only [ht] at he
        injection he with he
        exact .inr ⟨v, s, e', rfl, ht, he.symm⟩
      · intro lines he
        unfold reportAllplayall at he
        simp only [ht] at he
        cases he
    | ok t =>
      obtain ⟨lines, hl, hr⟩ := key v s t hd ht
      have hrep : reportAllplayall F a (some (v, s)) descriptions = .ok lines := by
        unfold reportAllplayall
        simp only [ht, hl]
        rfl
      refine ⟨?_, ?_⟩
      · intro e he; rw [hrep] at he; cases he
      · intro lines' he
        rw [hrep] at he
        injection he with he
        rw [← he]; exact hr

/-- C85: if all the runs used this control file, and a status has been saved, then the report can be made. -/
theorem C85_allplayall_same (W : World) (hW : PythonOK W) (F : Fmt) (hF : Spec.Fmt.Ok F) (base : Option Str) (code : Str) (config : List (Str × Val)) (a : Allplayall)
    (h : initAllplayall W base code config = .ok a) (h2 : 2 ≤ a.competitors.length) (events : List Tourn.Event) (hsame : SameRuns a.comp events)
    (descriptions : List (Str × Str)) (hd : (Tourn.World.after events).disk ≠ none) :
    ∃ lines r, reportAllplayall F a (Tourn.World.after events).disk descriptions = .ok lines ∧ RulesOf W (fun n => config.lookup n) r ∧
      AllplayallReport F a r.rounds (Tourn.World.after events).saved descriptions lines := by
  obtain ⟨h1, h2⟩ := C85_allplayall W hW F hF base code config a h h2 events descriptions
  cases hr : reportAllplayall F a (Tourn.World.after events).disk descriptions with
  | ok lines =>
    obtain ⟨r, a1, a2⟩ := h2 lines hr
    exact ⟨lines, r, rfl, a1, a2⟩
  | error e =>
    rcases h1 e hr with ⟨h, _⟩ | ⟨v, s, e', h, h', _⟩
    · exact absurd h hd
    · obtain ⟨t, ht⟩ := same_loads hsame h
      rw [h'] at ht; cases ht

/-! ### Finished competitions -/

/-- C85: when a run with the same control file as always says that the competition is complete (and it hadn't been told to stop), then for each of its matchups the saved results are those
of its games 0, 1, …, one for each, as many as the control file says (none, if it says a negative number). -/
theorem C85_complete (ctl0 : Tourn.Control) (comp : Tourn.Comp) (hctl : ctl0.initialise = .ok comp) (events : List Tourn.Event) (hsame : SameRuns comp events)
    (m : Jobs.Mp Tourn.RM Tourn.Job Tourn.Outcome Tourn.RExc) (hm : Tourn.World.after events = .up m) (hret : m.phase = .returned none) (hstop : m.src.stopping = false) :
    ∀ mu ∈ comp.matchups, ∃ c, mu.numberOfGames = some c ∧ ∃ ns : List Nat, ns.Perm (List.range c.toNat) ∧
      List.Forall₂ (fun r n => ∃ x, r = (mu.job n).result x) ((Tourn.World.after events).saved mu.id) ns ∧
      (mu.alternating = true → mu.player1 ≠ mu.player2 →
        ((Tourn.World.after events).saved mu.id).countP (fun r => r.playerB = mu.player1) = (c.toNat + 1) / 2 ∧
        ((Tourn.World.after events).saved mu.id).countP (fun r => r.playerB = mu.player2) = c.toNat / 2) := by
  intro mu hmu
  have hg := Tourn.goodComp hctl
  have hcomp : m.src.t.comp = comp := by
    obtain ⟨ctl, mg, disp, w, h1, h2⟩ := Tourn.up_comp events m hm
    rw [hsame ctl mg disp w h1] at h2
    injection h2 with h2
    exact h2.symm
  have hid : ∀ mu' ∈ comp.matchups, mu'.id = mu.id → mu' = mu := fun mu' h' he => List.inj_on_of_nodup_map hg.ids h' hmu he
  obtain ⟨c, hc, hle⟩ := Tourn.C36_complete events m hm hret hstop mu (hcomp ▸ hmu)
  refine ⟨c, hc, ?_⟩
  obtain ⟨ns, n1, n2, n3, n4, n5⟩ := Tourn.C36_numbers events mu.id c.toNat (by
    intro ctl mg disp w hev comp' hc' mu' hmu' he
    rw [hsame ctl mg disp w hev] at hc'
    injection hc' with hc'
    rw [← hc'] at hmu'
    rw [hid mu' hmu' he]
    exact ⟨c, hc, by omega⟩)
  have hperm := n5 (by omega)
  have hj := Tourn.saved_jobs events mu.id
  have hall : List.Forall₂ (fun r n => ∃ x, r = (mu.job n).result x) ((Tourn.World.after events).saved mu.id) ns := by
    generalize (Tourn.World.after events).saved mu.id = l at n3 hj
    clear n1 n2 n4 n5 hperm hle
    induction n3 with
    | nil => exact .nil
    | @cons r n l ns h _ ih =>
      refine .cons ?_ (ih (fun r hr => hj r (List.mem_cons_of_mem _ hr)))
      obtain ⟨ctl, mg, disp, w, comp', a1, a2, mu', hmu', he', n', x, he⟩ := hj r List.mem_cons_self
      rw [hsame ctl mg disp w a1] at a2
      injection a2 with a2
      rw [← a2] at hmu'
      have hmm := hid mu' hmu' he'
      subst hmm
      refine ⟨x, ?_⟩
      obtain ⟨gid, hg, hgid⟩ := h
      have hg' : r.gameId = some (mu'.makeGameId n') := by
        rw [he]
        show some (mu'.job n').gameId = _
        rw [(Tourn.job_fields mu' n').2.2]
      have : gid = mu'.makeGameId n' := Option.some.inj (hg.symm.trans hg')
      rw [this] at hgid
      have := (Tourn.gameIdOf_inj hgid (Tourn.gameIdOf_make mu' n')).2
      rw [this]; exact he
  refine ⟨ns, hperm, hall, ?_⟩
  intro halt hne
  have hcount : ∀ q : Str, ((Tourn.World.after events).saved mu.id).countP (fun r => r.playerB = q) = ns.countP (fun n => (mu.job n).playerB = q) := by
    intro q
    clear hj n1 n2 n3 n4 n5 hperm hle
    generalize (Tourn.World.after events).saved mu.id = l at hall
    induction hall with
    | nil => rfl
    | @cons r n l ns h _ ih =>
      obtain ⟨x, rfl⟩ := h
      rw [List.countP_cons, List.countP_cons, ih]
      rfl
  rw [hcount, hcount, hperm.countP_eq, hperm.countP_eq]
  exact Tourn.C37_balance mu halt hne c.toNat

/-! ### An example -/

def runControl : Tourn.Control := .allplayall ["p1".toList, "p2".toList, "p3".toList] ["p2".toList, "p1".toList, "p3".toList] (some 4)

/-- Two games; then a crash during the third; then it's played again. -/
def runEvents : List Tourn.Event :=
  let mgr : Tourn.Event := .step (.mgr Tourn.exampleEnv)
  [.start runControl none true 1, mgr, mgr, .step (.take 0), .step (.finishJob 0 (some (Tourn.exampleWin .b))), mgr, mgr, mgr, .step (.take 0),
   .step (.finishJob 0 (some (Tourn.exampleWin .w))), mgr, mgr, mgr, .step (.take 0), .down,
   .start runControl none false 1, mgr, mgr, .step (.take 0), .step (.finishJob 0 (some Tourn.exampleJigo)), mgr, .down]

def runReport : Option (List Str) :=
  match initAllplayall roundWorld none "test".toList (roundConfig 1) with
  | .ok a => (reportAllplayall exampleFmt a (Tourn.World.after runEvents).disk [("p2".toList, "second".toList), ("p1".toList, "first".toList)]).toOption
  | .error _ => none

/-- C85: an all-play-all, from the control file of C76_witness, through a crash, to the report; a history which ends with a complete competition; and that the hypotheses about the runs
can be met by any playoff's control file. -/
theorem C85_witness :
    (∃ a, initAllplayall roundWorld none "test".toList (roundConfig 1) = .ok a ∧ 2 ≤ a.competitors.length ∧ SameRuns a.comp runEvents) ∧
    (Tourn.World.after runEvents).disk ≠ none ∧
    runReport = some ([
      "allplayall: test",
      "",
      "3/12 games played",
      "",
      "      A   B       C",
      "A p2     1-0     0-1",
      "B p1 0-1         0.5-0.5",
      "C p3 1-0 0.5-0.5",
      "",
      "p2 v p1 (1/4 games)",
      "board size: 9   komi: 7.5",
      "     wins                   avg cpu",
      "p2      1 100.00%   (black)    ----",
      "p1      0   0.00%   (white)    2.00",
      "",
      "p2 v p3 (1/4 games)",
      "board size: 9   komi: 7.5",
      "     wins                   avg cpu",
      "p2      0   0.00%   (black)    ----",
      "p3      1 100.00%   (white)    2.00",
      "",
      "p1 v p3 (1/4 games)",
      "board size: 9   komi: 7.5",
      "     wins",
      "p1    0.5 50.00%   (black)",
      "p3    0.5 50.00%   (white)",
      "",
      "player p1: first",
      "player p2: second",
      ""].map String.toList) ∧
    (∃ comp, (Tourn.exampleControl 4).initialise = .ok comp ∧ SameRuns comp (Tourn.exampleEvents ++ Tourn.exampleResume) ∧
      ∃ m, Tourn.World.after (Tourn.exampleEvents ++ Tourn.exampleResume) = .up m ∧ m.phase = .returned none ∧ m.src.stopping = false) ∧
    (∀ W, PythonOK W → ∀ base code config p, initPlayoff W base code config = .ok p → ∃ ctl : Tourn.Control, ∀ mg disp w (steps : List (Jobs.Step Tourn.Outcome Tourn.Env)),
      SameRuns p.comp (.start ctl mg disp w :: steps.map .step) ∧ PlayoffRuns (.start ctl mg disp w :: steps.map .step)) := by
  refine ⟨?_, by decide +kernel, by decide +kernel, ?_, ?_⟩
  · have h1 : runControl.initialise.toOption = (initAllplayall roundWorld none "test".toList (roundConfig 1)).toOption.map Allplayall.comp := by decide +kernel
    have h2 : (initAllplayall roundWorld none "test".toList (roundConfig 1)).toOption.map (fun a => a.competitors.length) = some 3 := by decide +kernel
    have h3 : runControl.initialise.toOption.isSome = true := by decide +kernel
    cases ha : initAllplayall roundWorld none "test".toList (roundConfig 1) with
    | error e => rw [ha] at h2; cases h2
    | ok a =>
      rw [ha] at h1 h2
      refine ⟨a, rfl, (by have h2' : a.competitors.length = 3 := Option.some.inj h2
                          omega), ?_⟩
      have hc : runControl.initialise = .ok a.comp := by
        cases hc : runControl.initialise with
        | error e => rw [hc] at h3; cases h3
        | ok c =>
          rw [hc] at h1
          have h1' : c = a.comp := Option.some.inj h1
          rw [h1']
      intro ctl mg disp w hev
      have : ctl = runControl := by
        simp only [runEvents, List.mem_cons, Tourn.Event.start.injEq, reduceCtorEq, false_or, List.not_mem_nil, or_false] at hev
        rcases hev with ⟨h, _⟩ | ⟨h, _⟩ <;> exact h
      rw [this]; exact hc
  · have h3 : (Tourn.exampleControl 4).initialise.toOption.isSome = true := by decide +kernel
    cases hc : (Tourn.exampleControl 4).initialise with
    | error e => rw [hc] at h3; cases h3
    | ok comp =>
      refine ⟨comp, rfl, ?_, _, rfl, rfl, rfl⟩
      intro ctl mg disp w hev
      have : ctl = Tourn.exampleControl 4 := by
        simp only [Tourn.exampleEvents, Tourn.exampleResume, List.mem_append, List.mem_cons, Tourn.Event.start.injEq, reduceCtorEq, List.not_mem_nil, or_false] at hev
        rcases hev with ⟨h, _⟩ | ⟨h, _⟩ <;> exact h
      rw [this]; exact hc
  · intro W hW base code config p hp
    obtain ⟨players0, _, configs, hc⟩ := C75_control W hW base code config p hp
    refine ⟨.playoff (players0.map Prod.fst) configs, fun mg disp w steps => ?_⟩
    have hs : SameRuns p.comp (.start (.playoff (players0.map Prod.fst) configs) mg disp w :: steps.map .step) := by
      intro ctl mg' disp' w' hev
      rcases List.mem_cons.1 hev with he | hm
      · injection he with he; rw [he]; exact hc
      · obtain ⟨s, _, hs⟩ := List.mem_map.1 hm
        cases hs
    refine ⟨hs, ?_⟩
    intro ctl mg' disp' w' hev comp hcomp
    rw [hs ctl mg' disp' w' hev] at hcomp
    injection hcomp with hcomp
    exact ⟨W, base, code, config, p, hW, hp, hcomp.symm⟩

end Gomill.Conf
