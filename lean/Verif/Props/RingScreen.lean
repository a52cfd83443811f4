import Verif.Props.RingLive
/-
C96: the screen. gomill/ringmasters.py, gomill/ringmaster_presenters.py.
-/
namespace Gomill.Ring.Live
open Jobs
variable {σ J X η V E : Type} {C : Competition σ J X η V E} {T : Texts σ J X η} {quiet : Bool} {workers : Option Nat} {mg : Option Int} {v0 : Nat} {d0 : Option (Nat × V)}

/-! ### The ids of the games in progress -/

theorem store_nodup {l : List J} (h : (l.map C.gameId).Nodup) (j : J) : ((storeJob C l j).map C.gameId).Nodup := by
  unfold storeJob
  rw [List.map_append, List.nodup_append]
  refine ⟨h.sublist (List.filter_sublist.map _), by simp, ?_⟩
  intro a ha b hb hab
  obtain ⟨j', hj', rfl⟩ := List.mem_map.mp ha
  simp only [List.map_cons, List.map_nil, List.mem_singleton] at hb
  subst hb
  have := (List.mem_filter.mp hj').2
  simp only [ne_eq, decide_eq_true_eq] at this
  exact this hab

theorem pop_nodup {l l' : List J} {g : Str} {j : J} (h : (l.map C.gameId).Nodup) (hp : popJob C l g = some (j, l')) : (l'.map C.gameId).Nodup := by
  unfold popJob at hp
  split at hp
  · cases hp
  · obtain ⟨_, rfl⟩ := Prod.mk.inj (Option.some.inj hp)
    exact h.sublist (List.filter_sublist.map _)

/-- The number of games still to be started, when --max-games is `mg`. -/
def leftOf (mg : Option Int) (acts : List (Act σ J X E)) : Option Int := mg.map (fun k => k - (asked acts : Int))

theorem nextJob_left (s : RM σ J X V E) (e : Env η) (h : (s.inProgress.map C.gameId).Nodup) :
    ((s.nextJob C e).2.inProgress.map C.gameId).Nodup ∧ (s.nextJob C e).2.maxGames = s.maxGames ∧
    ∀ r, (s.nextJob C e).1 = .ok r → asked (s.nextJob C e).2.acts = asked s.acts + 1 := by
  unfold RM.nextJob
  split
  · exact ⟨store_nodup h _, rfl, fun _ _ => rfl⟩
  · unfold RM.newGame
    split
    · exact ⟨h, rfl, nofun⟩
    · exact ⟨h, rfl, fun _ _ => rfl⟩
    · split
      · exact ⟨h, rfl, nofun⟩
      · exact ⟨store_nodup h _, rfl, fun _ _ => rfl⟩

theorem getJob1_left (s : RM σ J X V E) (e : Env η) (h : (s.inProgress.map C.gameId).Nodup) :
    ((s.getJob1 C e).2.inProgress.map C.gameId).Nodup ∧
    ∀ r, (s.getJob1 C e).1 = .ok r → s.maxGames = leftOf mg s.acts → (s.getJob1 C e).2.maxGames = leftOf mg (s.getJob1 C e).2.acts := by
  unfold RM.getJob1
  split
  · exact ⟨h, fun _ _ hl => hl⟩
  · split
    · exact ⟨h, fun _ _ hl => hl⟩
    · cases hm : s.maxGames with
      | none =>
        obtain ⟨h1, h2, h3⟩ := nextJob_left (C := C) s e h
        refine ⟨h1, fun r hr hl => ?_⟩
        cases mg with
        | none => exact h2.trans (hm.trans rfl)
        | some k => cases hl
      | some k =>
        simp only
        split
        · exact ⟨h, fun _ _ hl => hm.trans hl⟩
        · obtain ⟨h1, h2, h3⟩ := nextJob_left (C := C) { s with maxGames := some (k - 1) } e h
          refine ⟨h1, fun r hr hl => ?_⟩
          cases mg with
          | none => cases hl
          | some k0 =>
            rw [h2]
            have hl' : k = k0 - (asked s.acts : Int) := Option.some.inj hl
            have h3' := h3 r hr
            change asked _ = asked s.acts + 1 at h3'
            unfold leftOf
            rw [h3']
            simp only [Option.map_some, Option.some.injEq]
            omega

theorem getJob_left (s : RM σ J X V E) (e : Env η) (h : (s.inProgress.map C.gameId).Nodup) :
    ((s.getJob C e).2.inProgress.map C.gameId).Nodup ∧
    ∀ r, (s.getJob C e).1 = .ok r → s.maxGames = leftOf mg s.acts → (s.getJob C e).2.maxGames = leftOf mg (s.getJob C e).2.acts := by
  unfold RM.getJob
  obtain ⟨h1, h2⟩ := getJob1_left (C := C) (mg := mg) s e h
  rcases hg : s.getJob1 C e with ⟨r1, s1⟩
  rw [hg] at h1 h2
  cases r1 with
  | error x => exact ⟨h1, nofun⟩
  | ok r1 =>
    simp only
    unfold RM.updateDisplay
    cases e.display with
    | false => exact ⟨h1, fun r hr hl => h2 r1 rfl hl⟩
    | true =>
      simp only [if_true]
      rcases C.screenReport e.report s1.comp with ⟨x | u, c⟩
      · exact ⟨h1, nofun⟩
      · exact ⟨h1, fun r hr hl => h2 r1 rfl hl⟩

theorem processResponse_left (s : RM σ J X V E) (e : Env η) (j : J) (x : X) (h : (s.inProgress.map C.gameId).Nodup) :
    ((s.processResponse C e j x).2.inProgress.map C.gameId).Nodup ∧
    ∀ u, (s.processResponse C e j x).1 = .ok u → s.maxGames = leftOf mg s.acts → (s.processResponse C e j x).2.maxGames = leftOf mg (s.processResponse C e j x).2.acts := by
  unfold RM.processResponse RM.writeStatus
  split
  · exact ⟨h, nofun⟩
  · split
    · exact ⟨h, nofun⟩
    · rename_i hp
      split
      · exact ⟨pop_nodup h hp, fun _ _ hl => hl⟩
      · exact ⟨pop_nodup h hp, nofun⟩

theorem bookError_left {s s' : RM σ J X V E} {j : J} {n : Nat} {b : Bool} (hb : s.bookError C j n b = some s') (h : (s.inProgress.map C.gameId).Nodup) :
    (s'.inProgress.map C.gameId).Nodup ∧ s'.maxGames = s.maxGames ∧ s'.acts = s.acts := by
  unfold RM.bookError at hb
  split at hb
  · cases hb
  · rename_i hp
    repeat' split at hb
    all_goals
      obtain rfl := Option.some.inj hb
      exact ⟨pop_nodup h hp, rfl, rfl⟩

theorem processError_left (s : RM σ J X V E) (e : Env η) (j : J) (h : (s.inProgress.map C.gameId).Nodup) :
    ((s.processError C e j).2.inProgress.map C.gameId).Nodup ∧
    ∀ u, (s.processError C e j).1 = .ok u → s.maxGames = leftOf mg s.acts → (s.processError C e j).2.maxGames = leftOf mg (s.processError C e j).2.acts := by
  unfold RM.processError RM.writeStatus
  split
  · exact ⟨h, nofun⟩
  · split
    · exact ⟨h, nofun⟩
    · rename_i hb
      obtain ⟨h1, h2, h3⟩ := bookError_left hb h
      rcases Bool.eq_false_or_eq_true e.diskOk with hd | hd
      · simp only [hd, if_true]
        refine ⟨?_, fun u _ hl => ?_⟩
        · split <;> exact h1
        · split
          · simp only [h2, h3]; exact hl
          · rw [h2, h3]; exact hl
      · simp only [hd, Bool.false_eq_true, if_false]
        exact ⟨h1, nofun⟩

theorem lift_excOf {α : Type} {r : Except (RExc E) α} (h : excOf (lift r) = none) : ∃ a, r = .ok a := by
  cases r with
  | ok a => exact ⟨a, rfl⟩
  | error x => cases h

theorem _root_.Gomill.Ring.Live.Life.left {d : Desk σ J X V E} {exc : Option (DExc E)} (h : Life C T quiet workers mg v0 d0 d exc) :
    (d.rm.inProgress.map C.gameId).Nodup ∧ (exc = none → d.rm.maxGames = leftOf mg d.rm.acts) := by
  induction h with
  | start now termios tty e c mg' hs =>
    rename_i r d
    have key : ∀ d1 : Desk σ J X V E, d1.rm = ⟨c, v0, [], [], [], mg, false, d0, []⟩ → Desk.updateDisplay C T e.screen e.report d1 = (r, d) →
        (d.rm.inProgress.map C.gameId).Nodup ∧ (excOf r = none → d.rm.maxGames = leftOf mg d.rm.acts) := by
      intro d1 hd1 hu
      have hd := display_spec _ _ _ hu
      cases hq : d1.screen.quiet with
      | true =>
        obtain ⟨_, rfl⟩ := hd.isQuiet hq
        rw [hd1]
        exact ⟨List.nodup_nil, fun _ => by cases mg <;> simp [leftOf, asked]⟩
      | false =>
        rcases hd.cases hq with ⟨x, c', _, rfl, h1, _⟩ | ⟨u, c', B, _, h1, _⟩
        · rw [h1, hd1]; exact ⟨List.nodup_nil, nofun⟩
        · rw [h1, hd1]; exact ⟨List.nodup_nil, fun _ => by cases mg <;> simp [leftOf, asked]⟩
    unfold Desk.start at hs
    cases workers with
    | none => exact key _ rfl hs
    | some n => exact key _ rfl hs
  | getJob e hd hg ih =>
    rename_i d d' r
    rcases getJob_rm hg with ⟨rfl, h1⟩ | ⟨h1, h2⟩
    · rw [h1]; exact ⟨ih.1, nofun⟩
    · obtain ⟨h3, h4⟩ := getJob_left (C := C) (mg := mg) d.rm (absEnv d e) ih.1
      rw [h1]
      refine ⟨h3, fun he => ?_⟩
      rcases h2 with rfl | rfl
      · cases he
      · obtain ⟨a, ha⟩ := lift_excOf he
        exact h4 a ha (ih.2 rfl)
  | response e j x hd hg ih =>
    rename_i d d' r
    obtain ⟨h1, h2⟩ := processResponse_rm (C := C) (T := T) d e j x
    rw [hg] at h1 h2
    simp only at h1 h2
    obtain ⟨h3, h4⟩ := processResponse_left (C := C) (mg := mg) d.rm (absEnv d e) j x ih.1
    rw [h2, h1]
    refine ⟨h3, fun he => ?_⟩
    obtain ⟨a, ha⟩ := lift_excOf he
    exact h4 a ha (ih.2 rfl)
  | error e j hd hg ih =>
    rename_i d d' r
    obtain ⟨h1, h2⟩ := processError_rm (C := C) (T := T) d e j
    rw [hg] at h1 h2
    simp only at h1 h2
    obtain ⟨h3, h4⟩ := processError_left (C := C) (mg := mg) d.rm (absEnv d e) j ih.1
    rw [h2, h1]
    refine ⟨h3, fun he => ?_⟩
    obtain ⟨a, ha⟩ := lift_excOf he
    exact h4 a ha (ih.2 rfl)

/-! ### Boxes -/

theorem lastOf_eq {α : Type} (n : Nat) (l : List α) : l.drop (l.length - n) = lastOf n l := by
  unfold lastOf
  rw [List.take_reverse, List.reverse_reverse]

theorem lastOf_nil {α : Type} {n : Nat} (hn : 0 < n) (l : List α) : lastOf n l = [] ↔ l = [] := by
  rw [← lastOf_eq, List.drop_eq_nil_iff]
  cases l with
  | nil => simp
  | cons a l => simp; omega

theorem lastOf_all {α : Type} {n : Nat} {l : List α} (h : l.length ≤ n) : lastOf n l = l := by
  rw [← lastOf_eq, Nat.sub_eq_zero_of_le h, List.drop_zero]

theorem showBox_eq (heading : Option Str) {limit : Nat} (hl : 0 < limit) (last : Bool) (l : List Str) :
    (showBox heading limit last l : List (Eff σ J X V E)) =
      boxOf (match heading with | none => [] | some h => [.out ("= ".toList ++ h ++ " = ".toList)]) (lastOf limit l) (if last then [] else [.out []]) := by
  unfold showBox boxOf layout
  by_cases h : l = []
  · rw [if_pos h, if_pos ((lastOf_nil hl l).mpr h)]
  · rw [if_neg h, if_neg (fun hf => h ((lastOf_nil hl l).mp hf)), lastOf_eq]
    cases heading <;> rfl

theorem statusLines_eq (d : Desk σ J X V E) :
    d.statusLines C = statusBox d.workers (if d.rm.stopping then some d.reason else none) (Sgf.sortStrs (d.rm.inProgress.map C.gameId)) d.rm.maxGames
      d.terminal.enabled := by
  have hp := Sgf.sortStrs_perm (d.rm.inProgress.map C.gameId)
  have hlen : (Sgf.sortStrs (d.rm.inProgress.map C.gameId)).length = d.rm.inProgress.length := by rw [hp.length_eq, List.length_map]
  have hnil : Sgf.sortStrs (d.rm.inProgress.map C.gameId) = [] ↔ d.rm.inProgress = [] := by
    rw [← List.length_eq_zero_iff, hlen, List.length_eq_zero_iff]
  unfold Desk.statusLines statusBox
  rw [hlen]
  generalize Sgf.sortStrs (d.rm.inProgress.map C.gameId) = ids at *
  have hemp : ids.isEmpty = d.rm.inProgress.isEmpty := by
    rw [Bool.eq_iff_iff, List.isEmpty_iff, List.isEmpty_iff]; exact hnil
  rw [hemp]
  simp only [hnil]
  rcases hi : d.rm.inProgress with _ | ⟨j, l⟩ <;> rcases hw : d.workers with _ | w <;> rcases hs : d.rm.stopping <;> rcases hm : d.rm.maxGames with _ | k <;>
    rcases ht : d.terminal.enabled <;>
    simp [-String.toList_append]

theorem statusBox_short (w : Option Nat) (halting : Option Str) (ids : List Str) (left : Option Int) (can : Bool) :
    (statusBox w halting ids left can).length ≤ 999 := by
  have : (statusBox w halting ids left can).length ≤ 4 := by
    unfold statusBox
    simp only [List.length_append]
    repeat' split
    all_goals simp
  omega

theorem dropNewline_spec (s : Str) : Stripped (dropNewline s) s := by
  unfold dropNewline Stripped
  by_cases h : s.getLast? = some '\n'
  · rw [if_pos h]
    left
    obtain ⟨hn, h2⟩ := List.getLast?_eq_some_iff.mp h
    rw [h2]; simp
  · rw [if_neg h]
    exact .inr ⟨rfl, fun t ht => h (by rw [ht]; simp)⟩

theorem boxes_eq (d : Desk σ J X V E) (report : Str) :
    (boxes { d.screen with status := d.statusLines C, report := [report] } : List (Eff σ J X V E)) =
      screenful d.workers (if d.rm.stopping then some d.reason else none) (Sgf.sortStrs (d.rm.inProgress.map C.gameId)) d.rm.maxGames d.terminal.enabled report
        d.screen.results d.screen.warnings := by
  unfold boxes screenful
  simp only
  rw [showBox_eq _ (by omega), showBox_eq _ (by omega), showBox_eq _ (by omega), showBox_eq _ (by omega), statusLines_eq,
    lastOf_all (statusBox_short _ _ _ _ _), lastOf_all (n := 999) (l := [report]) (by simp)]
  rfl

/-! ### The screen -/

/-- What a screen shows, after `p`: the state of the ringmaster is `d`, and the competition's was `before` when it was asked for its report. -/
structure Shows (C : Competition σ J X η V E) (T : Texts σ J X η) (workers : Option Nat) (mg : Option Int) (v0 : Nat) (hh : η) (before : σ) (p : List (Eff σ J X V E))
    (d : Desk σ J X V E) : Prop where
  asks : C.screenReport hh before = (.ok (), d.rm.comp)
  shows : ∃ l halting ids shown, d.trace = p ++ l ++ screenful workers halting ids (mg.map (fun k => k - (asked (actsOf p) : Int))) d.terminal.enabled shown
      (said .results p) (said .warnings p) ∧
    Cleared l ∧
    (halting.isSome ↔ Stopped (actsOf p)) ∧ (∀ reason, halting = some reason → .log ("halting competition: ".toList ++ reason) ∈ p) ∧
    ids.Perm (d.rm.inProgress.map C.gameId) ∧ ids.Pairwise (· < ·) ∧
    Stripped shown (voidNote (v0 + voids (actsOf p)) ++ T.report hh before)

theorem shows_of {d1 d' : Desk σ J X V E} {hh : η} (hi : LInv C T false workers v0 d0 d1 none)
    (hl : (d1.rm.inProgress.map C.gameId).Nodup ∧ d1.rm.maxGames = leftOf mg d1.rm.acts) (hd : Displayed C T hh d1 (.ok ()) d') :
    Shows C T workers mg v0 hh d1.rm.comp d1.trace d' := by
  rcases hd.cases hi.quiet with ⟨x, c, _, hf, _⟩ | ⟨u, c, B, h1, h2, h3, _, h4⟩
  · cases hf
  · rcases h4 with hf | ⟨_, l, hl1, rfl⟩
    · cases hf
    · refine ⟨by rw [h2]; exact h1, l, if d1.rm.stopping then some d1.reason else none, Sgf.sortStrs (d1.rm.inProgress.map C.gameId),
        dropNewline ((if d1.rm.voidGameCount > 0 then Py.strInt d1.rm.voidGameCount ++ " void games; see log file.\n".toList else []) ++ T.report hh d1.rm.comp),
        ?_, hl1, ?_, ?_, ?_, ?_, ?_⟩
      · rw [h3, boxes_eq, hi.workers, hd.terminal, hi.results rfl, hi.warnings rfl, hl.2, hi.acts, List.append_assoc]
        rfl
      · rw [hi.acts, ← hi.stop rfl]
        cases d1.rm.stopping <;> simp
      · intro reason hr
        cases hs : d1.rm.stopping with
        | false => rw [hs] at hr; cases hr
        | true =>
          rw [hs] at hr
          obtain rfl := Option.some.inj hr
          exact hi.reason hs
      · rw [h2]; exact Sgf.sortStrs_perm _
      · exact Gtp.sortStrs_sorted _ hl.1
      · have hv : (if d1.rm.voidGameCount > 0 then Py.strInt d1.rm.voidGameCount ++ " void games; see log file.\n".toList else []) = voidNote (v0 + voids (actsOf d1.trace)) := by
          rw [hi.acts, ← hi.void rfl]
          unfold voidNote
          cases d1.rm.voidGameCount with
          | zero => rfl
          | succ n => rfl
        rw [← hv]
        exact dropNewline_spec _

/-- C96: without --quiet, each time the ringmaster is asked for a job the screen is cleared, and then it shows: why the run is stopping, if it is (it's waiting for the workers if there
are some and games are in progress); the ids of the games in progress, sorted; otherwise how many more games will be started, and how to stop the run; then
the number of void games there have ever been, and the competition's report; then the last six results, and the last four warnings, of those there have been in this run. -/
theorem C96_screen {d d' : Desk σ J X V E} {e : LEnv η} {r : Option J} (h : Life C T false workers mg v0 d0 d none) (hg : d.getJob C T e = (.ok r, d')) :
    ∃ p, d.trace <+: p ∧ actsOf p = actsOf d'.trace ∧ Shows C T workers mg v0 e.report (d.getJob1 C T e).2.rm.comp p d' := by
  have hi' := h.inv.getJob hg
  unfold Desk.getJob at hg
  have hrm := getJob1_rm (C := C) (T := T) d e
  rcases hg1 : d.getJob1 C T e with ⟨r1, d1⟩
  have hi1 := h.inv.getJob1 hg1
  rw [hg1] at hg hrm
  cases r1 with
  | error x => cases hg
  | ok r1 =>
    simp only at hg
    rcases hrm with ⟨hf, _⟩ | ⟨h1, h2⟩
    · cases hf
    · obtain ⟨h3, h4⟩ := getJob1_left (C := C) (mg := mg) d.rm (absEnv d e) h.left.1
      rw [← h2] at h3 h4
      obtain ⟨a, ha⟩ := lift_excOf (r := (RM.getJob1 C (absEnv d e) d.rm).1) (by rw [← h1]; rfl)
      rcases hu : d1.updateDisplay C T e.screen e.report with ⟨r2, d2⟩
      have hd := display_spec _ _ _ hu
      rw [hu] at hg
      cases r2 with
      | error x => cases hg
      | ok u =>
        obtain ⟨_, rfl⟩ := Prod.mk.inj hg
        have hs := shows_of (mg := mg) hi1 ⟨h3, h4 a ha (h.left.2 rfl)⟩ hd
        refine ⟨d1.trace, ?_, ?_, hs⟩
        · cases hst : d.rm.stopping with
          | true =>
            unfold Desk.getJob1 at hg1
            rw [hst, if_pos rfl] at hg1
            obtain ⟨_, rfl⟩ := Prod.mk.inj hg1
            exact List.prefix_refl _
          | false =>
            obtain ⟨new, hn, _⟩ := (getJob1_stops hg1 hst).adds
            rw [hn]; exact List.prefix_append _ _
        · rw [hi1.acts, hi'.acts]
          rcases hd.cases hi1.quiet with ⟨x, c, _, hf, _⟩ | ⟨u, c, B, _, h5, _⟩
          · cases hf
          · rw [h5]

/-- C96: the screen is also shown when the run starts. Then there's nothing but what will be done, and the report. -/
theorem C96_first_screen {now : Str} {termios tty : Bool} {e : LEnv η} {c : σ} {mg' : Option Int} {d : Desk σ J X V E}
    (hs : Desk.start C T now false workers (Terminal.initialise termios tty) mg e ⟨c, v0, [], [], [], mg', false, d0, []⟩ = (.ok (), d)) :
    ∃ p, actsOf p = [] ∧ said .results p = [] ∧ said .warnings p = [] ∧ Shows C T workers mg v0 e.report c p d := by
  have h0 : LInv C T false workers v0 d0
      ({ rm := ⟨c, v0, [], [], [], mg, false, d0, []⟩, reason := [], workers := workers, terminal := Terminal.initialise termios tty, screen := Screen.new false, trace := [] } :
        Desk σ J X V E) none :=
    ⟨rfl, rfl, rfl, fun _ => rfl, fun _ => ⟨nofun, fun h => h.elim⟩, tells_nil, fun _ => rfl, fun _ => rfl, .inl rfl, rfl, nofun⟩
  have h1 := h0.log ("run started at ".toList ++ now ++ " with max_games ".toList ++ maxGamesText mg)
  have key : ∀ d1 : Desk σ J X V E, LInv C T false workers v0 d0 d1 none → d1.rm = ⟨c, v0, [], [], [], mg, false, d0, []⟩ → said .results d1.trace = [] → said .warnings d1.trace = [] →
      Desk.updateDisplay C T e.screen e.report d1 = (.ok (), d) →
      ∃ p, actsOf p = [] ∧ said .results p = [] ∧ said .warnings p = [] ∧ Shows C T workers mg v0 e.report c p d := by
    intro d1 hi hrm hr hw hu
    have hsh := shows_of (mg := mg) hi (by rw [hrm]; exact ⟨List.nodup_nil, by cases mg <;> simp [leftOf, asked]⟩) (display_spec _ _ _ hu)
    rw [hrm] at hsh
    exact ⟨d1.trace, by rw [hi.acts, hrm], hr, hw, hsh⟩
  unfold Desk.start at hs
  cases workers with
  | none => exact key _ h1 rfl rfl rfl hs
  | some n => exact key _ (h1.log ("using ".toList ++ Py.strInt n ++ " worker processes".toList)) rfl rfl rfl hs

/-- C96: with --max-games, the number shown is the number given, less one for each time the ringmaster has looked for a game to start (even if there was none); and the run
halts when it is to look for one and the number is 0. So if the number given is negative, there's no limit. -/
theorem C96_max_games {d : Desk σ J X V E} (h : Life C T quiet workers mg v0 d0 d none) :
    d.rm.maxGames = mg.map (fun k => k - (asked d.rm.acts : Int)) ∧
    (∀ k, mg = some k → k < 0 → ∀ e r d', d.getJob C T e = (r, d') → d.rm.stopping = false →
      ¬ TtyBreaks e.tty d.terminal → (d'.rm.stopping = true ↔ StopTyped e.tty d.terminal ∨ StopCommanded e.cmd)) := by
  refine ⟨h.left.2 rfl, fun k hk hneg e r d' hg hns hb => ?_⟩
  rw [(C95_stop hg hns).halts hb]
  have hne : d.rm.maxGames ≠ some 0 := by
    rw [h.left.2 rfl, hk]
    intro hf
    have := Option.some.inj hf
    simp only at this
    omega
  simp [hne]

/-- C96: with --max-games=k (not negative), the number shown is never negative. -/
theorem C96_not_negative {k : Nat} {d : Desk σ J X V E} (h : Life C T quiet workers (some (k : Int)) v0 d0 d none) :
    asked d.rm.acts ≤ k := by
  have key : ∀ {mg : Option Int} {d : Desk σ J X V E} {exc : Option (DExc E)}, Life C T quiet workers mg v0 d0 d exc → mg = some (k : Int) → exc = none → asked d.rm.acts ≤ k := by
    intro mg d exc h
    induction h with
    | start now termios tty e c mg' hs =>
      rename_i r d
      intro _ he
      have : d.rm.acts = [] := by
        have h1 : ∀ d1 : Desk σ J X V E, d1.rm.acts = [] → Desk.updateDisplay C T e.screen e.report d1 = (r, d) → d.rm.acts = [] := by
          intro d1 hd1 hu
          have hd := display_spec _ _ _ hu
          cases hq : d1.screen.quiet with
          | true => rw [(hd.isQuiet hq).2]; exact hd1
          | false =>
            rcases hd.cases hq with ⟨x, c', _, rfl, h1, _⟩ | ⟨u, c', B, _, h1, _⟩
            · cases he
            · rw [h1]; exact hd1
        unfold Desk.start at hs
        cases workers with
        | none => exact h1 _ rfl hs
        | some n => exact h1 _ rfl hs
      rw [this]; exact Nat.zero_le _
    | getJob e hd hg ih =>
      intro hmg he
      rename_i d d' r
      have hlt := ih hmg rfl
      rcases getJob_rm hg with ⟨rfl, h1⟩ | ⟨h1, h2⟩
      · cases he
      · rcases h2 with rfl | rfl
        · cases he
        · obtain ⟨a, ha⟩ := lift_excOf he
          have hl := (Life.getJob e hd hg).left.2 he
          have hl0 := hd.left.2 rfl
          rw [hmg] at hl hl0
          rw [h1] at hl ⊢
          unfold RM.getJob at hl ha ⊢
          rcases hg1 : RM.getJob1 C (absEnv d e) d.rm with ⟨r1, s1⟩
          rw [hg1] at hl ha
          cases r1 with
          | error x => cases ha
          | ok r1 =>
            have hs1 : asked s1.acts ≤ k := by
              unfold RM.getJob1 at hg1
              rw [hl0] at hg1
              simp only [leftOf, Option.map_some] at hg1
              repeat' split at hg1
              · obtain ⟨_, rfl⟩ := Prod.mk.inj hg1; exact hlt
              · obtain ⟨_, rfl⟩ := Prod.mk.inj hg1; exact hlt
              · obtain ⟨_, rfl⟩ := Prod.mk.inj hg1; exact hlt
              · rename_i hne
                obtain ⟨_, _, h5⟩ := nextJob_left (C := C) { d.rm with maxGames := some ((k : Int) - (asked d.rm.acts : Int) - 1) } (absEnv d e) hd.left.1
                have h6 := h5 r1 (by rw [hg1])
                rw [hg1] at h6
                simp only at h6
                omega
            simp only
            unfold RM.updateDisplay
            cases (absEnv d e).display with
            | false => exact hs1
            | true =>
              simp only [if_true]
              rcases C.screenReport (absEnv d e).report s1.comp with ⟨x | u, c⟩ <;> exact hs1
    | response e j x hd hg ih =>
      intro hmg he
      rename_i d d' r
      obtain ⟨h1, h2⟩ := processResponse_rm (C := C) (T := T) d e j x
      rw [hg] at h1 h2
      simp only at h1 h2
      rw [h2]
      unfold RM.processResponse RM.writeStatus
      repeat' split
      all_goals exact ih hmg rfl
    | error e j hd hg ih =>
      intro hmg he
      rename_i d d' r
      obtain ⟨h1, h2⟩ := processError_rm (C := C) (T := T) d e j
      rw [hg] at h1 h2
      simp only at h1 h2
      rw [h2]
      have hlt := ih hmg rfl
      unfold RM.processError RM.writeStatus
      split
      · exact hlt
      · split
        · exact hlt
        · rename_i hb
          have h3 := (bookError_facts hb)
          obtain ⟨_, _, h3⟩ := bookError_left hb hd.left.1
          rcases Bool.eq_false_or_eq_true (absEnv d e).diskOk with hdk | hdk
          · simp only [hdk, if_true]
            split <;> simp only [h3] <;> exact hlt
          · simp only [hdk, Bool.false_eq_true, if_false, h3]
            exact hlt
  exact key h rfl rfl

/-- C96: in a run of the job manager, the games in progress are the ones which the workers have, or which are in the queues; these are the games listed on the screen. -/
theorem C96_in_progress {now : Str} {termios tty : Bool} {e : LEnv η} {c : σ} {mg' : Option Int} {d : Desk σ J X V E} {h : η}
    (hl : (d0 = none ∧ C.clean h = .ok c ∧ v0 = 0) ∨ ∃ saved, d0 = some (v0, saved) ∧ C.load h saved = .ok c)
    (hs : Desk.start C T now quiet workers (Terminal.initialise termios tty) mg e ⟨c, v0, [], [], [], mg', false, d0, []⟩ = (.ok (), d))
    {n : Nat} (hn : 1 ≤ n) (steps : List (Step X (LEnv η))) (hf : ((Mp.start d n).run (source C T) steps).phase.fine) :
    let m := (Mp.start d n : Mp (Desk σ J X V E) J X (DExc E)).run (source C T) steps
    m.src.rm.inProgress.Perm m.inFlight ∧ (playing C.gameId (actsOf m.src.trace)).Perm m.inFlight ∧ (m.src.rm.inProgress.map C.gameId).Nodup := by
  intro m
  obtain ⟨hlife, hstart⟩ := C95_start hl hs
  obtain ⟨steps', h1, h2⟩ := C95_same_run (C := C) (T := T) d n steps
  have hend : endedWith m.phase = none := by
    have hf' : m.phase.fine := hf
    rcases hp : m.phase with _ | _ | ⟨_ | x⟩ | ⟨_ | x⟩ <;> rw [hp] at hf' <;> first | rfl | exact nomatch hf'
  have hm := (C95_manager hlife n steps []).1
  obtain ⟨h3, h4, h5, h6, h7, h8⟩ := h2 (by rw [show endedWith ((Mp.start d n).run (source C T) steps).phase = none from hend]; nofun)
    (by rw [show endedWith ((Mp.start d n).run (source C T) steps).phase = none from hend]; nofun)
  have hrec := C88_record C hstart hn steps' (h7.mpr hf)
  have hfl : ((Mp.start d.rm n : Mp (RM σ J X V E) J X (RExc E)).run (Ring.source C) steps').inFlight = m.inFlight := by
    unfold Mp.inFlight Mp.queued Mp.running
    rw [h4, h5, h6]
  obtain ⟨_, _, h9, h10⟩ := hrec
  rw [hfl] at h9 h10
  rw [h1] at h9 h10
  change Life C T quiet workers mg v0 d0 m.src _ at hm
  refine ⟨h10, ?_, hm.left.1⟩
  rw [hm.inv.acts]
  exact h9

/-- C96: when the screen can't be cleared with `clear`, and the environment variable LINES is set, then the run ends with TypeError. -/
theorem C96_type_error {d : Desk σ J X V E} (hq : d.screen.quiet = false) {e : ScreenEnv} (hl : e.linesSet = true)
    (hc : (d.screen.method = none ∧ e.isatty = true ∧ e.clearOk = false) ∨ (d.screen.method = some .clear ∧ e.clearOk = false))
    {hh : η} {c : σ} (hr : C.screenReport hh d.rm.comp = (.ok (), c)) : (d.updateDisplay C T e hh).1 = .error .screen := by
  have hcs : ∀ s : Screen, s.method = d.screen.method → ∃ es s', s.clearScreen (σ := σ) (J := J) (X := X) (V := V) (E := E) e = (.error (), es, s') := by
    intro s hs
    unfold Screen.clearScreen
    rw [hs]
    generalize List.replicate 81 '\n' = t
    rcases hc with ⟨h1, h2, h3⟩ | ⟨h1, h3⟩
    · rw [h1, h2, h3, hl]; exact ⟨_, _, rfl⟩
    · rw [h1, h3, hl]; exact ⟨_, _, rfl⟩
  unfold Desk.updateDisplay
  rw [if_neg (by rw [hq]; exact Bool.false_ne_true)]
  simp only
  rw [hr]
  simp only
  unfold Screen.refresh
  generalize hsc : ({ d.screen with status := d.statusLines C, report := [dropNewline ((if d.rm.voidGameCount > 0 then
        Py.strInt d.rm.voidGameCount ++ " void games; see log file.\n".toList else []) ++ T.report hh d.rm.comp)] } : Screen) = sc
  obtain ⟨es, s', h⟩ := hcs sc (by rw [← hsc])
  rw [h]

/-! ### The end of the run -/

/-- C95: at the end of a run, the log says that it has finished; if it was with an exception, then also its text, and which games were in progress. -/
theorem C95_end {d : Desk σ J X V E} {exc : Option (DExc E)} (h : Life C T quiet workers mg v0 d0 d exc) (isCompetitionError : E → Bool) (now text : Str) :
    ((none : Option (DExc E)) = exc → (d.finish C isCompetitionError now text exc).trace = d.trace ++ [.log ("run finished at ".toList ++ now)]) ∧
    (∀ x, exc = some x → ∃ ids what, ids.Perm (d.rm.inProgress.map C.gameId) ∧ ids.Pairwise (· < ·) ∧
      (d.finish C isCompetitionError now text exc).trace =
        d.trace ++ [.log (what ++ now ++ '\n' :: text), .log ("games in progress were: ".toList ++ Py.join [' '] ids)] ∧
      (what = "run finished with error at ".toList ↔ x = .ring .statusWrite ∨ ∃ y, x = .ring (.comp y) ∧ isCompetitionError y = true) ∧
      (what = "run finished with error at ".toList ∨ what = "run finished with internal error at ".toList)) := by
  constructor
  · rintro rfl
    rfl
  · rintro x rfl
    have hne : "run finished with internal error at ".toList ≠ "run finished with error at ".toList := by decide
    have htr : ∀ (b : Bool), ((if b then "run finished with error at ".toList else "run finished with internal error at ".toList) = "run finished with error at ".toList ↔ b = true) ∧
        ((if b then "run finished with error at ".toList else "run finished with internal error at ".toList) = "run finished with error at ".toList ∨
          (if b then "run finished with error at ".toList else "run finished with internal error at ".toList) = "run finished with internal error at ".toList) := by
      intro b
      cases b
      · exact ⟨⟨fun h => absurd h hne, nofun⟩, .inr rfl⟩
      · exact ⟨⟨fun _ => rfl, fun _ => rfl⟩, .inl rfl⟩
    have key : ∀ b : Bool, (b = true ↔ x = .ring .statusWrite ∨ ∃ y, x = .ring (.comp y) ∧ isCompetitionError y = true) →
        (d.finish C isCompetitionError now text (some x)).trace =
          d.trace ++ [.log ((if b then "run finished with error at ".toList else "run finished with internal error at ".toList) ++ now ++ '\n' :: text)] ++
            [.log ("games in progress were: ".toList ++ Py.join [' '] (Sgf.sortStrs (d.rm.inProgress.map C.gameId)))] →
        ∃ ids what, ids.Perm (d.rm.inProgress.map C.gameId) ∧ ids.Pairwise (· < ·) ∧
          (d.finish C isCompetitionError now text (some x)).trace =
            d.trace ++ [.log (what ++ now ++ '\n' :: text), .log ("games in progress were: ".toList ++ Py.join [' '] ids)] ∧
          (what = "run finished with error at ".toList ↔ x = .ring .statusWrite ∨ ∃ y, x = .ring (.comp y) ∧ isCompetitionError y = true) ∧
          (what = "run finished with error at ".toList ∨ what = "run finished with internal error at ".toList) := by
      intro b hb ht
      refine ⟨_, _, Sgf.sortStrs_perm _, Gtp.sortStrs_sorted _ h.left.1, ht.trans (List.append_assoc _ _ _), ?_, (htr b).2⟩
      rw [(htr b).1, hb]
    rcases x with (_ | _ | _ | y) | _ | _
    · exact key false (by simp) rfl
    · exact key false (by simp) rfl
    · exact key true (by simp) rfl
    · exact key (isCompetitionError y) (by simp) rfl
    · exact key false (by simp) rfl
    · exact key false (by simp) rfl

/-! ### An example -/

/-- The texts of an example. -/
def exampleTexts : Texts (Nat × Nat) Nat Nat Unit where
  black _ := "p1".toList
  white _ := "p2".toList
  warnings x := if x = 7 then ["slow".toList] else []
  logEntries _ := ["entry".toList]
  describe _ := "p1 beat p2 B+R".toList
  described _ _ _ _ := none
  report _ s := Py.strInt s.2 ++ " points\n".toList
  gameLog _ _ := []
  resultLog _ _ _ _ := [(false, "history".toList)]
  errorLog _ _ _ _ := []

/-- Nothing is typed and there's no command file; stdout isn't a terminal. -/
def exampleCalm : LEnv Unit := ⟨⟨[], some true, .ok, none, true⟩, ⟨none, none⟩, ⟨false, true, false⟩, "no move".toList, 0, true, (), ()⟩

/-- ^X has been typed, among other things; and there's a command file which says to stop. -/
def exampleBusy : LEnv Unit := ⟨⟨['a', Char.ofNat 24, 'b'], some true, .ok, none, true⟩, ⟨some (.ok "stop".toList), none⟩, ⟨false, true, false⟩, [], 0, true, (), ()⟩

/-- A run: two games are started; the first fails, the second succeeds (with a warning). Then the user types ^X. -/
def exampleLive (quiet : Bool) : Mp (Desk (Nat × Nat) Nat Nat (Nat × Nat) Unit) Nat Nat (DExc Unit) :=
  (Mp.start (Desk.start (exampleCompetition (Nat.toDigits 10)) exampleTexts "12:00".toList quiet (some 2) (Terminal.initialise true true) (some 5) exampleCalm
    ⟨(0, 0), 0, [], [], [], none, false, none, []⟩).2 2).run (source (exampleCompetition (Nat.toDigits 10)) exampleTexts)
    [.mgr exampleCalm, .mgr exampleCalm, .take 0, .take 1, .finishJob 0 none, .mgr exampleCalm, .mgr exampleCalm, .finishJob 1 (some 7), .mgr exampleCalm, .mgr exampleCalm, .mgr exampleCalm, .mgr exampleBusy]

/-- The entries in the log. -/
def logged (t : List (Eff σ J X V E)) : List Str := t.filterMap (fun a => match a with | .log s => some s | _ => none)

/-- What has been printed. -/
def printed (t : List (Eff σ J X V E)) : List Str := t.filterMap (fun a => match a with | .out s => some s | .err s => some s | .tty s => some s | _ => none)

/-- C95: an example with --quiet. -/
theorem C95_witness :
    endedWith (exampleLive true).phase = none ∧
    logged (exampleLive true).src.trace = ["run started at 12:00 with max_games 5", "using 2 worker processes", "starting game 0: p1 (b) vs p2 (w)",
      "starting game 1: p1 (b) vs p2 (w)", "game 0 -- no move", "starting game 0: p1 (b) vs p2 (w)", "response from game 1", "slow", "entry",
      "halting competition: stop instruction received from terminal"].map String.toList ∧
    printed (exampleLive true).src.trace = ["game 0 -- no move", "slow", "\rCtrl-X received; halting\n"].map String.toList ∧
    (exampleLive true).src.terminal = ⟨true, .clean, []⟩ ∧ (exampleLive true).inFlight = [0] ∧
    logged ((exampleLive true).src.finish (exampleCompetition (Nat.toDigits 10)) (fun _ => true) "13:00".toList "oops".toList (some (.ring (.comp ())))).trace =
      logged (exampleLive true).src.trace ++ ["run finished with error at 13:00\noops", "games in progress were: 0"].map String.toList := by
  refine ⟨by decide +kernel, by decide +kernel, by decide +kernel, by decide +kernel, by decide +kernel, by decide +kernel⟩

/-- C96: the same with a display: the last two screens. -/
theorem C96_witness :
    (printed (exampleLive false).src.trace).drop 15 = ["game 0 -- no move",
      "------------------------------------------------------------------------------",
      "2 games in progress: 0 1\nwill start at most 2 more games in this run\n(Ctrl-X to halt gracefully)", "",
      "1 void games; see log file.\n0 points", "", "= Warnings = ", "game 0 -- no move", "slow",
      "------------------------------------------------------------------------------",
      "waiting for workers to finish: stop instruction received from terminal\n1 games in progress: 0", "",
      "1 void games; see log file.\n7 points", "", "= Results = ", "game 1: p1 beat p2 B+R", "", "= Warnings = ", "game 0 -- no move\nslow"].map String.toList := by
  decide +kernel

end Gomill.Ring.Live
