import Verif.Spec.ResultsApi
import Verif.Props.FullRun
/-
C91: a tournament's results, as a script sees them.
-/
namespace Gomill.Conf
open Py Spec

theorem accepted_facts {W : World} (hW : PythonOK W) {c : Tourn.Comp} {ms : List Matchup} (h : AcceptedTournament W c ms) :
    Tourn.GoodComp c ∧ c.matchups = ms.map Matchup.core ∧ (ms.map Matchup.id).Nodup ∧ ∀ m ∈ ms, m.player1 ≠ m.player2 := by
  have key : Tourn.GoodComp c ∧ c.matchups = ms.map Matchup.core := by
    cases h with
    | playoff base code config p h => exact ⟨playoff_good hW h, rfl⟩
    | allplayall base code config a h => exact ⟨round_good hW h, rfl⟩
  obtain ⟨hg, he⟩ := key
  refine ⟨hg, he, ?_, ?_⟩
  · have := hg.ids
    rw [he, List.map_map] at this
    exact this
  · intro m hm
    exact hg.players m.core (by rw [he]; exact List.mem_map_of_mem hm)

/-! ### Statistics -/

theorem stats_of {p1 p2 : Str} (hp : p1 ≠ p2) {l : List GameResult} (h : ResultsOf p1 p2 l) : ∃ s, fullStats l p1 p2 = .ok s ∧ StatsOf p1 p2 l s := by
  obtain ⟨t1, a1, b1⟩ := average_spec (fun r hr => (h.times r hr).1)
  obtain ⟨t2, a2, b2⟩ := average_spec (fun r hr => (h.times r hr).2)
  refine ⟨_, by unfold fullStats; rw [a1, a2]; rfl, ?_⟩
  have hcol := Tourn.C38_played p1 p2 hp l h.between
  have hsum := Tourn.C38_totals p1 p2 hp l h.between
  have hplayed : ∀ b, b = Tourn.colourBreakdown l p1 p2 → b.played1b = blackGames p1 l ∧ b.played1w = whiteGames p1 l ∧ b.played2b = blackGames p2 l ∧ b.playedY2 = whiteGames p2 l := by
    intro b hb
    subst hb
    unfold Tourn.colourBreakdown
    dsimp only
    split
    · exact ⟨count_filter _ l, count_filter _ l, count_filter _ l, count_filter _ l⟩
    · split
      · exact ⟨count_filter _ l, count_filter _ l, count_filter _ l, count_filter _ l⟩
      · exact ⟨count_filter _ l, count_filter _ l, count_filter _ l, count_filter _ l⟩
  obtain ⟨q1, q2, q3, q4⟩ := hplayed _ rfl
  refine ⟨⟨rfl, rfl⟩, rfl, count_filter _ l, ⟨?_, ?_⟩, hsum.2.1, ⟨?_, ?_⟩, ⟨q1, q2⟩, ⟨q3, q4⟩, hcol.2.2.2.2, ?_, ?_, ⟨b1, b2⟩⟩
  · show (Tourn.countIf _ l : Rat) + Tourn.jigoScore l = _
    rw [count_filter, jigo_eq]; rfl
  · show (Tourn.countIf _ l : Rat) + Tourn.jigoScore l = _
    rw [count_filter, jigo_eq]; rfl
  · show Tourn.countIf _ l = _
    rw [count_filter]; unfold forfeits; congr 2; funext r; simp
  · show Tourn.countIf _ l = _
    rw [count_filter]; unfold forfeits; congr 2; funext r; simp
  · show (Tourn.colourBreakdown l p1 p2).alternating = false → _
    unfold Tourn.colourBreakdown
    dsimp only
    split
    · rename_i hz
      intro _
      refine .inl ⟨rfl, fun r hr => ?_⟩
      rcases (h.between r hr).2.2.2 with e | ⟨e1, e2⟩
      · exact e
      · exact absurd e2 (count_zero.1 hz.1 r hr)
    · split
      · rename_i hz
        intro _
        refine .inr ⟨rfl, fun r hr => ?_⟩
        rcases (h.between r hr).2.2.2 with ⟨e1, e2⟩ | e
        · exact absurd e1 (count_zero.1 hz.1 r hr)
        · exact e
      · intro hc; cases hc
  · show (Tourn.colourBreakdown l p1 p2).alternating = true → _
    unfold Tourn.colourBreakdown
    dsimp only
    split
    · intro hc; cases hc
    · split
      · intro hc; cases hc
      · intro _
        refine ⟨rfl, _, rfl, side_eq l .b, side_eq l .w, colour_eq l p1 .b, colour_eq l p1 .w, colour_eq l p2 .b, colour_eq l p2 .w⟩

/-! ### The map of the matchups -/

theorem dict_facts : ∀ (ms : List Matchup) (d : List (Str × Matchup)), (d.map Prod.fst).Nodup → (ms.map Matchup.id).Nodup → (∀ m ∈ ms, m.id ∉ d.map Prod.fst) →
    ((ms.foldl (fun d m => put d m.id m) d).map Prod.fst).Nodup ∧
    ∀ k m, (k, m) ∈ ms.foldl (fun d m => put d m.id m) d ↔ (k, m) ∈ d ∨ (m ∈ ms ∧ m.id = k)
  | [], d, h, _, _ => ⟨h, fun k m => by simp⟩
  | m0 :: ms, d, h, hn, hd => by
    have hn' := List.nodup_cons.1 hn
    have hd0 : m0.id ∉ d.map Prod.fst := hd m0 List.mem_cons_self
    obtain ⟨a, b⟩ := dict_facts ms (put d m0.id m0) (nodup_put d m0.id m0 h) hn'.2 (by
      intro m hm hc
      rw [keys_put] at hc
      rcases hc with hc | hc
      · exact hn'.1 (hc ▸ List.mem_map_of_mem hm)
      · exact hd m (List.mem_cons_of_mem _ hm) hc)
    refine ⟨a, fun k m => ?_⟩
    rw [List.foldl_cons, b]
    unfold put
    simp only [List.mem_append, List.mem_filter, List.mem_singleton, List.mem_cons, Prod.mk.injEq]
    constructor
    · rintro ((⟨h1, _⟩ | ⟨h1, h2⟩ | h1) | ⟨h1, h2⟩)
      · exact .inl h1
      · exact .inr ⟨.inl h2, by rw [h1, h2]⟩
      · cases h1
      · exact .inr ⟨.inr h1, h2⟩
    · rintro (h1 | ⟨h1 | h1, h2⟩)
      · refine .inl (.inl ⟨h1, ?_⟩)
        refine decide_eq_true ?_
        intro hc
        exact hd0 (List.mem_map.2 ⟨(k, m), h1, hc⟩)
      · exact .inl (.inr (.inl ⟨by rw [← h2, h1], h1⟩))
      · exact .inr ⟨h1, h2⟩

/-- A Tournament_results, made for these matchups, whose results are the saved ones. -/
structure ApiInv (ms : List Matchup) (saved : Str → List GameResult) (R : ResultsApi) : Prop where
  list : R.matchupList = ms
  get : ∀ k, R.results.get k = saved k
  nodup : (R.matchups.map Prod.fst).Nodup
  mem : ∀ k m, (k, m) ∈ R.matchups ↔ m ∈ ms ∧ m.id = k

theorem ApiInv.getMatchup {ms : List Matchup} {saved : Str → List GameResult} {R : ResultsApi} (h : ApiInv ms saved R) (k : Str) :
    (∃ m ∈ ms, m.id = k ∧ R.getMatchup k = .ok m) ∨ (k ∉ ms.map Matchup.id ∧ R.getMatchup k = .error .keyError) := by
  unfold ResultsApi.getMatchup
  cases hl : R.matchups.lookup k with
  | some m =>
    obtain ⟨a, b⟩ := (h.mem k m).1 (lookup_mem hl)
    exact .inl ⟨m, a, b, rfl⟩
  | none =>
    refine .inr ⟨?_, rfl⟩
    intro hc
    obtain ⟨m, hm, rfl⟩ := List.mem_map.1 hc
    have := lookup_of_mem h.nodup ((h.mem m.id m).2 ⟨hm, rfl⟩)
    rw [hl] at this; cases this

theorem ApiInv.touch {ms : List Matchup} {saved : Str → List GameResult} {R : ResultsApi} (h : ApiInv ms saved R) (k : Str) :
    ApiInv ms saved { R with results := R.results.touch k } :=
  ⟨h.list, fun k' => by rw [← h.get k']; exact Tourn.get_touch R.results k k', h.nodup, h.mem⟩

theorem ask_ok {ms : List Matchup} {saved : Str → List GameResult} {R : ResultsApi} (h : ApiInv ms saved R) (hs : ∀ m ∈ ms, m.player1 ≠ m.player2 ∧ ResultsOf m.player1 m.player2 (saved m.id))
    (q : Query) : Right ms saved q (R.ask q).1 ∧ ApiInv ms saved (R.ask q).2 := by
  cases q with
  | ids => exact ⟨by show _ = _; rw [← h.list]; rfl, h⟩
  | matchup k =>
    refine ⟨?_, h⟩
    show (∃ m ∈ ms, m.id = k ∧ (R.getMatchup k).map Answer.matchup = .ok (.matchup m)) ∨ _
    rcases h.getMatchup k with ⟨m, a, b, e⟩ | ⟨a, e⟩
    · exact .inl ⟨m, a, b, by rw [e]; rfl⟩
    · refine .inr ⟨a, ?_⟩
      show (R.getMatchup k).map Answer.matchup = _
      rw [e]; rfl
  | matchups => exact ⟨⟨_, rfl, h.nodup, h.mem⟩, h⟩
  | results k =>
    refine ⟨?_, h.touch k⟩
    show (Except.ok (Answer.results ((R.results.touch k).get k)) : Except Exc Answer) = _
    rw [Tourn.get_touch, h.get]
  | stats k =>
    rcases h.getMatchup k with ⟨m, a, b, e⟩ | ⟨a, e⟩
    · have hask : R.ask (.stats k) = ((fullStats ((R.results.touch k).get k) m.player1 m.player2).map .stats, { R with results := R.results.touch k }) := by
        unfold ResultsApi.ask; simp only [e]
      rw [hask]
      refine ⟨.inl ⟨m, a, b, ?_⟩, h.touch k⟩
      obtain ⟨s, c, d⟩ := stats_of (hs m a).1 (hs m a).2
      rw [b] at c d
      refine ⟨s, ?_, d⟩
      show (fullStats ((R.results.touch k).get k) m.player1 m.player2).map Answer.stats = _
      rw [Tourn.get_touch, h.get, c]; rfl
    · have hask : R.ask (.stats k) = (.error .keyError, R) := by
        unfold ResultsApi.ask; simp only [e]
      rw [hask]
      exact ⟨.inr ⟨a, rfl⟩, h⟩

theorem askAll_ok {ms : List Matchup} {saved : Str → List GameResult} (hs : ∀ m ∈ ms, m.player1 ≠ m.player2 ∧ ResultsOf m.player1 m.player2 (saved m.id)) :
    ∀ (qs : List Query) {R : ResultsApi}, ApiInv ms saved R → List.Forall₂ (Right ms saved) qs (R.askAll qs).1 ∧ ApiInv ms saved (R.askAll qs).2
  | [], _, h => ⟨.nil, h⟩
  | q :: qs, R, h => by
    obtain ⟨a, b⟩ := ask_ok h hs q
    obtain ⟨c, d⟩ := askAll_ok hs qs b
    exact ⟨.cons a c, d⟩

theorem api_new {ms : List Matchup} {saved : Str → List GameResult} {results : Tourn.Results} (hn : (ms.map Matchup.id).Nodup) (h : ∀ k, results.get k = saved k) :
    ApiInv ms saved (.new ms results) := by
  obtain ⟨a, b⟩ := dict_facts ms [] List.nodup_nil hn (fun _ _ h => by cases h)
  exact ⟨rfl, h, a, fun k m => by unfold ResultsApi.new; rw [b]; simp⟩

/-! ### The theorems -/

/-- C91: after any history of runs of a tournament (with crashes, failed games, and other control files), a script which loads the status with the present control file gets a
Tournament_results; and every call of it, in any sequence of calls, gives the right answer, according to the control file and the results saved.  (Loading fails only as described for
C85: there's no status file, or the control file was changed in a way which doesn't fit.) -/
theorem C91_answers (W : World) (hW : PythonOK W) (c : Tourn.Comp) (ms : List Matchup) (h : AcceptedTournament W c ms) (events : List Tourn.Event) (t : Tourn.State)
    (ht : loadResultsStatus c (Tourn.World.after events).disk = .ok t) :
    ∃ R, getTournamentResults (some ms) (some t.results) = .ok R ∧
      ∀ qs, List.Forall₂ (Right ms (Tourn.World.after events).saved) qs (R.askAll qs).1 := by
  obtain ⟨hg, he, hn, hp⟩ := accepted_facts hW h
  refine ⟨_, rfl, fun qs => ?_⟩
  unfold loadResultsStatus at ht
  split at ht
  · cases ht
  rename_i v s hd
  split at ht
  · cases ht
  rename_i t' hl
  injection ht with ht
  subst ht
  obtain ⟨hs, _, _, _, hres⟩ := loaded events hg hd hl
  refine (askAll_ok (fun m hm => ⟨hp m hm, ?_⟩) qs (api_new hn hs)).1
  exact hres m.core (by rw [he]; exact List.mem_map_of_mem hm)

/-- C91: with the same control file as always, the status can be loaded once there's a status file. -/
theorem C91_loads (c : Tourn.Comp) (events : List Tourn.Event) (hsame : SameRuns c events) (hd : (Tourn.World.after events).disk ≠ none) :
    ∃ t, loadResultsStatus c (Tourn.World.after events).disk = .ok t := by
  cases hx : (Tourn.World.after events).disk with
  | none => exact absurd hx hd
  | some y =>
    obtain ⟨t, ht⟩ := same_loads hsame hx
    exact ⟨t, by unfold loadResultsStatus; simp only [ht]⟩

/-- C91: before anything has been played, there are no results. -/
theorem C91_clean (W : World) (hW : PythonOK W) (c : Tourn.Comp) (ms : List Matchup) (h : AcceptedTournament W c ms) :
    ∃ R, getTournamentResults (some ms) (some (Tourn.State.clean c).results) = .ok R ∧ ∀ qs, List.Forall₂ (Right ms (fun _ => [])) qs (R.askAll qs).1 := by
  obtain ⟨hg, he, hn, hp⟩ := accepted_facts hW h
  refine ⟨_, rfl, fun qs => ?_⟩
  refine (askAll_ok (saved := fun _ => []) (fun m hm => ⟨hp m hm, ⟨?_, ?_⟩⟩) qs (api_new hn (fun k => rfl))).1
  · intro r hr; cases hr
  · intro r hr; cases hr

/-- C91: the results given for an id are those of different games of that matchup, and each has the id of its game. -/
theorem C91_game_ids (events : List Tourn.Event) (k : Str) :
    ∃ gids : List Str, gids.Nodup ∧ List.Forall₂ (fun r gid => r.gameId = some gid ∧ ∃ n, Tourn.GameIdOf k n gid) ((Tourn.World.after events).saved k) gids := by
  obtain ⟨ns, h1, h2⟩ := Tourn.C36_distinct events k
  generalize (Tourn.World.after events).saved k = l at h2
  have key : ∃ gids : List Str, List.Forall₂ (fun r gid => r.gameId = some gid ∧ ∃ n, Tourn.GameIdOf k n gid) l gids ∧ List.Forall₂ (fun n gid => Tourn.GameIdOf k n gid) ns gids := by
    clear h1
    induction h2 with
    | nil => exact ⟨[], .nil, .nil⟩
    | @cons r n l ns h _ ih =>
      obtain ⟨gids, a, b⟩ := ih
      obtain ⟨gid, hg, hi⟩ := h
      exact ⟨gid :: gids, .cons ⟨hg, n, hi⟩ a, .cons hi b⟩
  obtain ⟨gids, a, b⟩ := key
  refine ⟨gids, ?_, a⟩
  clear a h2
  induction b with
  | nil => exact List.nodup_nil
  | @cons n gid ns gids h hb ih =>
    have h1' := List.nodup_cons.1 h1
    refine List.nodup_cons.2 ⟨?_, ih h1'.2⟩
    intro hm
    have : n ∈ ns := by
      clear ih h1 h1'
      induction hb with
      | nil => cases hm
      | @cons n' gid' ns gids h' _ ih' =>
        rcases List.mem_cons.1 hm with e | hm
        · rw [e] at h
          exact (Tourn.gameIdOf_inj h h').2 ▸ List.mem_cons_self
        · exact List.mem_cons_of_mem _ (ih' hm)
    exact h1'.1 this

/-- C91: the ringmaster refuses if the status isn't loaded, or if the competition isn't a tournament. -/
theorem C91_refused (matchups : Option (List Matchup)) (status : Option Tourn.Results) (R : ResultsApi) (msg : Str) :
    (getTournamentResults matchups status = .ok R → matchups.isSome ∧ status.isSome) ∧
    (getTournamentResults matchups status = .error msg →
      (status = none ∧ msg = "status is not loaded".toList) ∨ (matchups = none ∧ status ≠ none ∧ msg = "competition is not a tournament".toList)) := by
  cases status with
  | none => exact ⟨(fun h => by cases h), fun h => .inl ⟨rfl, (Except.error.inj h).symm⟩⟩
  | some r =>
    cases matchups with
    | none => exact ⟨(fun h => by cases h), fun h => .inr ⟨rfl, by simp, (Except.error.inj h).symm⟩⟩
    | some l => exact ⟨fun _ => ⟨rfl, rfl⟩, fun h => by cases h⟩

/-! ### What the calls change -/

theorem touch_of_mem {r : Tourn.Results} {k : Str} (h : k ∈ r.map Prod.fst) : r.touch k = r := by
  unfold Tourn.Results.touch; rw [if_pos h]

theorem askAll_same {ms : List Matchup} {saved : Str → List GameResult} : ∀ (qs : List Query) {R : ResultsApi}, ApiInv ms saved R → (∀ m ∈ ms, m.id ∈ R.results.map Prod.fst) →
    (∀ k, Query.results k ∈ qs → k ∈ ms.map Matchup.id) → (R.askAll qs).2 = R
  | [], _, _, _, _ => rfl
  | q :: qs, R, h, hk, hq => by
    have h1 : (R.ask q).2 = R := by
      cases q with
      | ids => rfl
      | matchup k => rfl
      | matchups => rfl
      | results k =>
        obtain ⟨m, hm, rfl⟩ := List.mem_map.1 (hq k List.mem_cons_self)
        show { R with results := R.results.touch m.id } = R
        rw [touch_of_mem (hk m hm)]
      | stats k =>
        unfold ResultsApi.ask
        rcases h.getMatchup k with ⟨m, a, b, e⟩ | ⟨a, e⟩
        · simp only [e]
          rw [← b, touch_of_mem (hk m a)]
        · simp only [e]
    show ((R.ask q).2.askAll qs).2 = R
    rw [h1]
    exact askAll_same qs h hk (fun k hk' => hq k (List.mem_cons_of_mem _ hk'))

theorem touch_mono {r : Tourn.Results} {k k' : Str} (h : k ∈ r.map Prod.fst) : k ∈ (r.touch k').map Prod.fst := (Tourn.keys_touch r k' k).2 (.inl h)

theorem askAll_touched (k : Str) : ∀ (qs : List Query) (R : ResultsApi), (k ∈ R.results.map Prod.fst ∨ Query.results k ∈ qs) → k ∈ (R.askAll qs).2.results.map Prod.fst
  | [], R, h => by
    rcases h with h | h
    · exact h
    · cases h
  | q :: qs, R, h => by
    refine askAll_touched k qs (R.ask q).2 ?_
    have mono : k ∈ R.results.map Prod.fst → k ∈ (R.ask q).2.results.map Prod.fst := by
      clear h
      intro h
      cases q with
      | ids => exact h
      | matchup k => exact h
      | matchups => exact h
      | results k' => exact touch_mono h
      | stats k' =>
        unfold ResultsApi.ask
        cases hg : R.getMatchup k' with
        | error e => simp only [hg]; exact h
        | ok m => simp only [hg]; exact touch_mono h
    rcases h with h | h
    · exact .inl (mono h)
    · rcases List.mem_cons.1 h with h | h
      · subst h
        exact .inl ((Tourn.keys_touch R.results k k).2 (.inr rfl))
      · exact .inr h

theorem check_keeps : ∀ {ms : List Tourn.Matchup} {r r' : Tourn.Results}, Tourn.checkResults r ms = .ok r' → ∀ p ∈ r, p ∈ r'
  | [], r, r', h, p, hp => by injection h with h; rw [← h]; exact hp
  | mu :: ms, r, r', h, p, hp => by
    unfold Tourn.checkResults at h
    split at h
    · rename_i r1 h1
      refine check_keeps h p ?_
      have : r1 = r.touch mu.id := by
        unfold Tourn.checkMatchup at h1
        split at h1
        · injection h1 with h1; exact h1.symm
        · split at h1
          · injection h1 with h1; exact h1.symm
          · cases h1
      rw [this]
      unfold Tourn.Results.touch
      split
      · exact hp
      · exact List.mem_append_left _ hp
    · cases h

/-- C91: the calls don't change the tournament's state, as long as results aren't asked for with an id which isn't in the control file. -/
theorem C91_unchanged (W : World) (hW : PythonOK W) (c : Tourn.Comp) (ms : List Matchup) (h : AcceptedTournament W c ms) (events : List Tourn.Event) (t : Tourn.State)
    (ht : loadResultsStatus c (Tourn.World.after events).disk = .ok t) (qs : List Query) (hq : ∀ k, Query.results k ∈ qs → k ∈ ms.map Matchup.id) :
    ((ResultsApi.new ms t.results).askAll qs).2.results = t.results := by
  obtain ⟨hg, he, hn, hp⟩ := accepted_facts hW h
  unfold loadResultsStatus at ht
  split at ht
  · cases ht
  rename_i v s hd
  split at ht
  · cases ht
  rename_i t' hl
  injection ht with ht
  subst ht
  obtain ⟨hs, _, _, _, _⟩ := loaded events hg hd hl
  rw [askAll_same qs (api_new hn hs) ?_ hq]
  · rfl
  · intro m hm
    have hw := (Tourn.winv_after (P := Tourn.noParams) events (fun ev _ => Tourn.ok_noParams ev)).disk
    rw [hd] at hw
    obtain ⟨⟨l, hl'⟩, _⟩ := hw v s rfl
    unfold Tourn.State.load at hl
    split at hl
    · cases hl
    split at hl
    · cases hl
    rename_i r hr
    split at hl
    · cases hl
    injection hl with hl
    subst hl
    refine ((Tourn.checkResults_ok hr hl'.pickle).2.2.1 m.id).2 (.inr ?_)
    rw [he]
    exact List.mem_map.2 ⟨m.core, List.mem_map_of_mem hm, rfl⟩

/-- C91: but if a script asks for the results with an id which isn't a matchup's (and there are no results for it), and then the status is saved, it can't be loaded any more: asking has
added an empty entry to the results. -/
theorem C91_unknown_id (W : World) (hW : PythonOK W) (c : Tourn.Comp) (ms : List Matchup) (h : AcceptedTournament W c ms) (events : List Tourn.Event) (t : Tourn.State)
    (ht : loadResultsStatus c (Tourn.World.after events).disk = .ok t) (qs : List Query) (k : Str) (hq : Query.results k ∈ qs) (hk : k ∉ ms.map Matchup.id)
    (hno : (Tourn.World.after events).saved k = []) :
    ∃ e, loadResultsStatus c (some (0, ({ t with results := ((ResultsApi.new ms t.results).askAll qs).2.results } : Tourn.State).save)) = .error e := by
  obtain ⟨hg, he, hn, hp⟩ := accepted_facts hW h
  unfold loadResultsStatus at ht
  split at ht
  · cases ht
  rename_i v s hd
  split at ht
  · cases ht
  rename_i t' hl
  injection ht with ht
  subst ht
  obtain ⟨hs, hnd, _, _, hres⟩ := loaded events hg hd hl
  have hin := (askAll_ok (fun m hm => ⟨hp m hm, hres m.core (by rw [he]; exact List.mem_map_of_mem hm)⟩) qs (api_new hn hs)).2
  have hmem := askAll_touched k qs (.new ms t'.results) (.inr hq)
  generalize hR : ((ResultsApi.new ms t'.results).askAll qs).2 = R at hin hmem ⊢
  cases hx : loadResultsStatus c (some (0, ({ t' with results := R.results } : Tourn.State).save)) with
  | error e => exact ⟨e, rfl⟩
  | ok t2 =>
    exfalso
    unfold loadResultsStatus at hx
    simp only at hx
    split at hx
    · cases hx
    rename_i t3 h3
    clear hx
    unfold Tourn.State.load at h3
    split at h3
    · cases h3
    split at h3
    · cases h3
    rename_i r hr
    split at h3
    · cases h3
    rename_i gs hgs
    obtain ⟨l, hl1, hl2⟩ : ∃ l, (k, l) ∈ R.results ∧ l = [] := by
      have hget := hin.get k
      rw [hno] at hget
      unfold Tourn.Results.get at hget
      cases hlk : List.lookup k R.results with
      | none => exact absurd hmem ((lookup_none _ _).1 hlk)
      | some l =>
        rw [hlk] at hget
        exact ⟨l, lookup_mem hlk, hget⟩
    rw [hl2] at hl1
    have h4 : (k, []) ∈ r := check_keeps hr _ (List.mem_map.2 ⟨(k, []), List.mem_map.2 ⟨(k, []), hl1, rfl⟩, rfl⟩)
    refine ghosts_nonempty hgs k [] h4 ?_ rfl
    rw [he, List.map_map]
    exact hk

/-! ### An example -/

def exampleAnswers (qs : List Query) : Option (List (Except Exc Answer)) :=
  match initAllplayall roundWorld none "test".toList (roundConfig 1) with
  | .ok a => match loadResultsStatus a.comp (Tourn.World.after runEvents).disk with
    | .ok t => some ((ResultsApi.new a.base.matchups t.results).askAll qs).1
    | .error _ => none
  | .error _ => none

/-- An answer, as texts. -/
def answerTexts : Except Exc Answer → List Str
  | .error _ => ["error".toList]
  | .ok (.ids l) => l
  | .ok (.matchup m) => [m.id, m.player1, m.player2]
  | .ok (.matchups d) => d.map Prod.fst
  | .ok (.results l) => l.map (fun r => r.gameId.getD [])
  | .ok (.stats s) => [s.player1, s.player2, strInt s.stats.total, strInt (s.stats.wins1 * 2).floor, strInt (s.stats.wins2 * 2).floor]

/-- C91: the all-play-all of C85_witness: its control file is accepted, and its status can be loaded after a crash; and what a script is told. -/
theorem C91_witness :
    (∃ a t, AcceptedTournament roundWorld a.comp a.base.matchups ∧ initAllplayall roundWorld none "test".toList (roundConfig 1) = .ok a ∧
      loadResultsStatus a.comp (Tourn.World.after runEvents).disk = .ok t) ∧
    (exampleAnswers [.ids, .matchup "AvC".toList, .matchup "zz".toList, .matchups, .results "AvB".toList, .results "zz".toList, .stats "BvC".toList, .stats "zz".toList]).map
      (fun l => l.map answerTexts) =
    some ([["AvB", "AvC", "BvC"], ["AvC", "p2", "p3"], ["error"], ["AvB", "AvC", "BvC"], ["AvB_0"], [], ["p1", "p3", "1", "1", "1"], ["error"]].map (fun l => l.map String.toList)) := by
  refine ⟨?_, by decide +kernel⟩
  obtain ⟨⟨a, h1, _, h2⟩, h3, _⟩ := C85_witness
  obtain ⟨t, ht⟩ := C91_loads a.comp runEvents h2 h3
  exact ⟨a, t, .allplayall _ _ _ _ h1, h1, ht⟩

end Gomill.Conf
