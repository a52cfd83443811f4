import Verif.Spec.TwoGtp
import Verif.Lemmas.TwoGtpSgf
import Verif.Props.EngineDesc
import Verif.Props.GameJob
import Verif.Props.AsciiBoard
import Verif.Props.GameJobSgf
/-
C101: twogtp runs a series of games.
-/
namespace Gomill.Gtp
open Py Go Gomill.Spec

variable {σ : Type}

/-! ### The callback -/

theorem render_ok {n : Nat} (hn : n ≤ 25) {b : Board} (hi : BoardInv n b) : ∃ s, Ascii.renderBoard b = .ok s := by
  refine ⟨join ['\n'] (Ascii.renderedLines n b.pos), ?_⟩
  unfold Ascii.renderBoard
  rw [hi.side, Ascii.renderGrid_eq hn (pos := b.pos)]
  · rfl
  · intro row col hrow hcol
    have := get_ok hi.wf (p := ((row : Int), (col : Int))) (by rw [hi.side]; unfold OnBoard; simp; omega)
    simp only at this
    rw [this]; rfl

theorem twoCallback_said {n : Nat} (hn : n ≤ 25) (verbose : Nat) {x : MoveCall} (hx : BoardInv n x.2.2 ∧ ∀ p, x.2.1 = some p → OnBoard n p) (u : List Str) :
    twoCallback verbose x.1 x.2.1 x.2.2 u = (.ok (), u ++ said verbose x) := by
  obtain ⟨c, m, b⟩ := x
  obtain ⟨hb, hm⟩ := hx
  simp only at hb hm ⊢
  have h1 : ∃ v, formatVertex m = .ok v := by
    cases m with
    | none => exact ⟨_, rfl⟩
    | some p =>
      obtain ⟨v, hv, _⟩ := C13_vertex_round_trip n hn p (hm p rfl)
      exact ⟨v, hv⟩
  have h2 : ∃ s, Ascii.renderBoard b = .ok s := render_ok hn hb
  obtain ⟨v, hv⟩ := h1
  obtain ⟨s, hs⟩ := h2
  unfold twoCallback said printMove
  simp only [hv, hs, Except.toOption, Option.getD_some, Bool.false_eq_true, if_false, if_true]
  by_cases hv1 : verbose = 1
  · rw [if_pos hv1, if_pos hv1]
  · rw [if_neg hv1, if_neg hv1]
    by_cases hv2 : verbose = 2
    · rw [if_pos hv2, if_pos hv2, List.append_assoc]
      rfl
    · rw [if_neg hv2, if_neg hv2, List.append_nil]

theorem afterCalls_said {n : Nat} (hn : n ≤ 25) (verbose : Nat) : ∀ (calls : List MoveCall) (u : List Str), (∀ x ∈ calls, BoardInv n x.2.2 ∧ ∀ p, x.2.1 = some p → OnBoard n p) →
    afterCalls (fun c m b u => (twoCallback verbose c m b u).2) calls u = u ++ calls.flatMap (said verbose) := by
  intro calls
  induction calls with
  | nil => intro u _; simp [afterCalls]
  | cons x l ih =>
    intro u h
    have := ih (u ++ said verbose x) (fun y hy => h y (List.mem_cons_of_mem _ hy))
    unfold afterCalls at this ⊢
    rw [List.foldl_cons]
    simp only [twoCallback_said hn verbose (h x List.mem_cons_self) u] at this ⊢
    rw [this, List.flatMap_cons, List.append_assoc]

/-! ### A game -/

theorem fromScore_winner {fmt : Rat → Str} {w : Option Colour} {m : Option Num} {d : Option Str} {r : Res} (h : Res.fromScore fmt w m d = .ok r) : r.winningColour = w := by
  unfold Res.fromScore at h
  cases m with
  | none => cases h; rfl
  | some m =>
    simp only at h
    split at h
    · cases h
    · cases w with
      | none =>
        simp only at h
        split at h
        · cases h; rfl
        · cases h
      | some c =>
        simp only at h
        split at h
        · cases h
        · split at h
          · cases h
          · cases h; rfl

variable {W : TwoWorld σ} {o : TwoOpts} {d : Colour → EngineDesc}

theorem init_prepared {cfg : GtpCfg (List Str)} {C : Colour → Channel σ} {gc : GC σ} {u : List Str} {r : Except GExc Unit} {g : GtpGame σ (List Str)}
    (h : (GtpGame.init cfg gc u (some 1000) none).prepare C cfg = (r, g)) :
    g.runner.env.user = u ∧ g.runner.moveLimit = some 1000 ∧ g.runner.handicapStones = none ∧ g.runner.boardSize = cfg.boardSize := by
  unfold GtpGame.prepare Runner.prepare at h
  simp only [GtpGame.init, Runner.init, ne_eq, not_true_eq_false, if_false, Runner.call] at h
  have hu : ((gtpBackend C cfg).startNewGame cfg.boardSize cfg.komi ⟨gc, none, u, []⟩).2.user = u := by
    show (startNewGame C cfg cfg.boardSize cfg.komi ⟨gc, none, u, []⟩).2.user = u
    unfold startNewGame
    split <;> rfl
  cases hx : (gtpBackend C cfg).startNewGame cfg.boardSize cfg.komi ⟨gc, none, u, []⟩ with
  | mk x env =>
    rw [hx] at h hu
    cases x <;> cases h <;> exact ⟨hu, rfl, rfl, rfl⟩

/-- What is known of a game that `run` was called for. -/
theorem two_run (hn : 2 ≤ o.size ∧ o.size ≤ 25) (hk : isWellFormedWord (W.strFloat o.komi) = true) {gc : GC σ} (hgc : Usable gc) {u : List Str} {g g' : GtpGame σ (List Str)}
    (hp : (GtpGame.init (twoCfg W o) gc u (some 1000) none).prepare (fun _ => W.channel) (twoCfg W o) = (.ok (), g)) {fuel : Nat} {r : Except GExc Unit} {game : Option Game}
    (hr : g.run (fun _ => W.channel) (twoCfg W o) W.strFloat fuel = some (r, g', game)) :
    (∀ c, ∀ kv ∈ (g'.runner.env.gc.ctl c).aliases, isWellFormedWord kv.2 = true) ∧ (g'.runner.env.gc.code = gc.code ∧ g'.runner.env.gc.lateErrors = gc.lateErrors) ∧
    (∃ ms lines, ms = movesOf g'.runner ∧ Shows o.verbose o.size ms lines ∧ g'.runner.env.user = u ++ lines ∧
      (r = .ok () → Usable g'.runner.env.gc ∧ ∃ res, g'.result = some res ∧ TwoPlayed W.float W.strFloat o.size gc.code ms res)) ∧
    (∀ e, r = .error e → e = .backend 1 ∨
      ∃ c s w x, (c, s) ∈ g'.runner.env.scores ∧ Says W.float s (some w) (some x) ∧ (x = .inf ∧ e = .overflowError ∨ x = .nan ∧ e = .py .valueError)) := by
  have hg : Ready (fun _ => W.channel) (twoCfg W o) g := .prepare _ _ _ _ _ hgc hp
  obtain ⟨i1, i3, i4, i5⟩ := init_prepared hp
  have i2 : g.runner.env.gc.code = gc.code := (prepare_ready (fun _ => W.channel) (twoCfg W o) hk gc hgc _ _ _ g hp).gc.code
  have i6 : g.runner.env.gc.lateErrors = gc.lateErrors := (prepare_ready (fun _ => W.channel) (twoCfg W o) hk gc hgc _ _ _ g hp).gc.late
  obtain ⟨gm, h1, h2, h3, h4, h5⟩ := C58_run (fun _ => W.channel) (twoCfg W o) hk hn W.strFloat hg fuel r g' game hr
  have hcb := C58_callback (fun _ => W.channel) (twoCfg W o) hk hn.2 W.strFloat hg fuel r g' game hr
  obtain ⟨r1, x, c1, c2, c3, env', c4⟩ := gtpRun_cases (fun _ => W.channel) (twoCfg W o) W.strFloat fuel g r g' game hr
  have hempty : ∀ {b0 : Board}, StartBoard g.runner b0 → b0.pos = fun _ => none := by
    intro b0 hb
    funext p
    rw [hb.stones, handicapPosition, i4]
    simp
  have hshow : ∃ lines, Shows o.verbose o.size (movesOf g'.runner) lines ∧ g'.runner.env.user = u ++ lines := by
    rcases hcb with ⟨k1, k2⟩ | ⟨b0, calls, k1, k2, k3⟩
    · exact ⟨[], ⟨[], by rw [k1]; exact ⟨rfl, fun i hi => absurd hi (Nat.not_lt_zero _), (fun _ h => nomatch h)⟩, rfl⟩, by rw [k2, i1, List.append_nil]⟩
    · refine ⟨_, ⟨calls, by rw [← hempty k1]; exact k2, rfl⟩, ?_⟩
      rw [k3, i1]
      exact afterCalls_said hn.2 o.verbose calls u k2.sound
  obtain ⟨lines, l1, l2⟩ := hshow
  refine ⟨fun c => (h2 c).2, ⟨h3.1.trans i2, h3.2.trans i6⟩, ⟨movesOf g'.runner, lines, rfl, l1, l2, ?_⟩, ?_⟩
  · rintro rfl
    obtain ⟨_, _, k1, res, rr, errors, k2, k3, _, k4, _, k5, k6, k7, _⟩ := h4 rfl
    refine ⟨k1, res, k2, ?_, k4, by rw [k5, i2], by rw [k6, i2]⟩
    have hr1 : r1 = .ok () := by
      cases r1 with
      | ok u => rfl
      | error e => exact absurd (c2 e rfl).1 (fun h => nomatch h)
    obtain ⟨_, _, d1⟩ := C31_run (gtpBackend (fun _ => W.channel) (twoCfg W o)) W.strFloat g.runner hg.prepared (by rw [i5]; exact hn.2) fuel r1 x game c1
    obtain ⟨b0, h, e, g2, d2, d3, d4, d5, d6, rr', d7, d8, d9⟩ := d1 hr1
    have hrr : rr' = rr := by
      have : x.result = some rr := by rw [← k3, c4]
      rw [this] at d7
      exact (Option.some.inj d7).symm
    subst hrr
    have hm : movesOf g'.runner = movesOf x := by rw [c4]; rfl
    simp only [i4, Option.getD_none, if_true, i3, i5] at d5
    have hinv := d5.inv hn.2 (by have := d2.reachable.inv; rw [i5] at this; exact this)
    refine ⟨b0, h, e, g2, by have := d2.reachable; rw [i5] at this; exact this, fun p => by rw [hempty d2], d5, d6, by rw [hm]; exact d4, ?_, ?_⟩
    · intro hnt
      rw [k7]
      exact (d9 (by rcases Bool.eq_false_or_eq_true g2.passedOut with hx | hx; exact absurd (hinv.passedOut.1 hx) hnt; exact hx)).2
    · intro htp
      obtain ⟨sc, env, _, e2, e3⟩ := d8 (hinv.passedOut.2 htp)
      have e2 : (scoreGameGtp (fun _ => W.channel) (twoCfg W o) env).1 = .ok sc := e2
      rcases hs : scoreGameGtp (fun _ => W.channel) (twoCfg W o) env with ⟨y, env2⟩
      rw [hs] at e2
      simp only at e2
      subst e2
      obtain ⟨q1, q2, _⟩ := C59_score (fun _ => W.channel) (twoCfg W o) env env2 sc hs
      refine ⟨env2.scores.map Prod.snd, ?_, ?_⟩
      · have := q1.length_le
        rw [List.length_map] at this ⊢
        exact this
      · intro c
        rw [k7, fromScore_winner e3]
        exact q2 c
  · intro e he
    obtain ⟨_, z | ⟨k, c, m, b, u', _, z, z1, z2⟩ | ⟨_, _, z⟩⟩ := h5 e he
    · exact .inl z.1
    · have hsaid := twoCallback_said hn.2 o.verbose (x := (c, m, b)) ⟨z2, z1⟩ u'
      have z : (twoCallback o.verbose c m b u').1 = .error k := z
      rw [hsaid] at z
      cases z
    · exact .inr z

/-! ### The series -/

/-- After `n` games. -/
structure Sofar (W : TwoWorld σ) (o : TwoOpts) (d : Colour → EngineDesc) (gc0 : GC σ) (code0 : Colour → Str) (intro : List Str) (started : List JobEvent) (n : Nat) (st : TwoSt σ) (gs : List TwoGameRec) : Prop where
  usable : Usable st.gc
  code : st.gc.code = code0
  late : st.gc.lateErrors = []
  turns : InTurn W o d gc0 gs st.gc
  printed : st.printed = intro ++ gamesText gs
  trace : st.trace = started ++ twoFiles o.sgfbase (gs.map TwoGameRec.text)
  done : Completed W o code0 gs
  count : gs.length = n

/-- The end of a series. -/
def Over (W : TwoWorld σ) (o : TwoOpts) (d : Colour → EngineDesc) (gc0 : GC σ) (code : Colour → Str) (intro : List Str) (started : List JobEvent) (out : TwoOut σ) : Prop :=
  ∃ gs extra ms, (∃ gc, InTurn W o d gc0 gs gc) ∧ Completed W o code gs ∧ out.printed = intro ++ gamesText gs ++ extra ∧ Shows o.verbose o.size ms extra ∧ Ends W o d gc0 started gs extra out

theorem gamesText_snoc (gs : List TwoGameRec) (g : TwoGameRec) : gamesText (gs ++ [g]) = gamesText gs ++ (g.lines ++ [g.result.describe]) := by
  simp [gamesText]

theorem twoFiles_snoc (base : Str) (texts : List Str) (t : Str) : twoFiles (some base) (texts ++ [t]) = twoFiles (some base) texts ++
    [.opened (twoPath base texts.length), .wrote (twoPath base texts.length) t, .closed (twoPath base texts.length)] := by
  simp [twoFiles, List.zipIdx_append, twoPath]

theorem shows_nil (v n : Nat) : Shows v n [] [] := ⟨[], ⟨rfl, fun _ hi => absurd hi (Nat.not_lt_zero _), (fun _ h => nomatch h)⟩, rfl⟩

theorem closed_of {gc : GC σ} (hu : ∀ c, ∀ kv ∈ (gc.ctl c).aliases, isWellFormedWord kv.2 = true) (C : Colour → Channel σ) :
    ∃ gc', gc.closePlayers C = (.ok (), gc') ∧ ∀ c, (gc'.ctl c).closed = true := by
  obtain ⟨gc', h1, h2, _⟩ := C58_close_players C gc hu
  exact ⟨gc', h1, h2⟩

theorem abort_ends {st : TwoSt σ} (ha : ∀ c, ∀ kv ∈ (st.gc.ctl c).aliases, isWellFormedWord kv.2 = true) (k : Nat) (hk : k = 0 ∨ k = 1) :
    ∃ out, st.abort W (.backend k) = out ∧ BothClosed out ∧ out.printed = st.printed ∧ out.trace = st.trace ∧
      ∃ msg, out.ending = .exit ("aborting run due to error:\n".toList ++ msg ++ "\n".toList) := by
  obtain ⟨gc', h1, h2⟩ := closed_of ha (fun _ => W.channel)
  refine ⟨_, rfl, ?_⟩
  unfold TwoSt.abort
  have hs : (GExc.backend k).toStop W.excText = .gtp (W.excText (.backend k)) := by
    rcases hk with rfl | rfl <;> rfl
  rw [hs]
  simp only [h1]
  exact ⟨fun c => ⟨_, rfl, h2 c⟩, rfl, rfl, _, rfl⟩

/-- One game of the series. -/
theorem two_game (hn : 2 ≤ o.size ∧ o.size ≤ 25) (hk : isWellFormedWord (W.strFloat o.komi) = true) {gc0 : GC σ} {code : Colour → Str} {intro : List Str} {started : List JobEvent} {n : Nat} {st : TwoSt σ}
    {gs : List TwoGameRec} (hs : Sofar W o d gc0 code intro started n st gs) (hlt : n < o.games.toNat) (hrb : Replaces W.replaceBad) (desc : Colour → Option EngineDesc) (hdesc : ∀ c, desc c = some (d c)) (fuel : Nat) (x : Except (TwoOut σ) (TwoSt σ))
    (hx : twoGame W o desc fuel n st = some x) :
    (∀ st', x = .ok st' → ∃ g, Sofar W o d gc0 code intro started (n + 1) st' (gs ++ [g])) ∧ (∀ out, x = .error out → Over W o d gc0 code intro started out) := by
  have hlen := hs.count
  have aborted : ∀ {st' : TwoSt σ} {k : Nat} {ms : List Mv} {lines : List Str}, k = 0 ∨ k = 1 → (∀ c, ∀ kv ∈ (st'.gc.ctl c).aliases, isWellFormedWord kv.2 = true) →
      st'.printed = st.printed ++ lines → Shows o.verbose o.size ms lines → st'.trace = st.trace → Over W o d gc0 code intro started (st'.abort W (.backend k)) := by
    intro st' k ms lines h1 h2 h3 h4 h5
    obtain ⟨out, e1, e2, e3, e4, msg, e5⟩ := abort_ends (W := W) h2 k h1
    rw [e1]
    exact ⟨gs, lines, ms, ⟨_, hs.turns⟩, hs.done, by rw [e3, h3, hs.printed], h4, .aborted msg (by omega) e2 (by rw [e4, h5, hs.trace]) e5⟩
  unfold twoGame at hx
  obtain ⟨r, g, p1, _, p2, p3⟩ := C58_prepare (fun _ => W.channel) (twoCfg W o) hk st.gc hs.usable st.printed (some 1000) none
  obtain ⟨i1, _⟩ := init_prepared p1
  rw [p1] at hx
  cases r with
  | error e =>
    simp only [Option.some.injEq] at hx
    subst hx
    refine ⟨(fun _ h => nomatch h), fun out h => ?_⟩
    cases h
    have hk' : ∃ k, e = .backend k ∧ (k = 0 ∨ k = 1) := by
      rcases p3 with ⟨h, _⟩ | ⟨h, _⟩ | ⟨h, _⟩
      · cases h
      · cases h; exact ⟨0, rfl, .inl rfl⟩
      · cases h; exact ⟨1, rfl, .inr rfl⟩
    obtain ⟨k, rfl, hk'⟩ := hk'
    exact aborted hk' (fun c => (p2 c).2) (by rw [List.append_nil]; exact i1) (shows_nil _ _) rfl
  | ok u =>
    simp only at hx
    cases hr : g.run (fun _ => W.channel) (twoCfg W o) W.strFloat fuel with
    | none => rw [hr] at hx; cases hx
    | some y =>
      obtain ⟨r, g', game⟩ := y
      rw [hr] at hx
      obtain ⟨a1, ⟨a2, a7⟩, ⟨ms, lines, a8, a3, a4, a5⟩, a6⟩ := two_run hn hk hs.usable p1 hr
      cases r with
      | error e =>
        simp only [Option.some.injEq] at hx
        subst hx
        refine ⟨(fun _ h => nomatch h), fun out h => ?_⟩
        cases h
        rcases a6 e rfl with rfl | ⟨c, s, w, y, b1, b2, b3⟩
        · exact aborted (.inr rfl) a1 a4 a3 rfl
        · have hab : (st.after g').abort W e = (st.after g').stop .crashed := by
            unfold TwoSt.abort
            rcases b3 with ⟨_, rfl⟩ | ⟨_, rfl⟩ <;> rfl
          rw [hab]
          refine ⟨gs, lines, ms, ⟨_, hs.turns⟩, hs.done, ?_, a3, .crashed (by omega) rfl (.inr ⟨⟨g', fun _ => rfl, c, s, w, y, b1, b2, b3.imp And.left And.left⟩, hs.trace⟩)⟩
          show g'.runner.env.user = _
          rw [a4, hs.printed]
      | ok u =>
        obtain ⟨hu, res, c1, c2⟩ := a5 rfl
        simp only [c1, Option.some.injEq] at hx
        rw [hs.code] at a2 c2
        rw [hs.late] at a7
        have hprinted : ∀ text, g'.runner.env.user ++ [res.describe] = intro ++ gamesText (gs ++ [⟨ms, res, lines, text⟩]) := by
          intro text
          rw [a4, hs.printed, gamesText_snoc]
          simp only [List.append_assoc]
        have hdone : ∀ text, Completed W o code (gs ++ [⟨ms, res, lines, text⟩]) := by
          intro text
          refine ⟨?_, ?_⟩
          · intro g hg
            rcases List.mem_append.1 hg with hg | hg
            · exact hs.done.played g hg
            · rw [List.mem_singleton.1 hg]; exact c2
          · intro g hg
            rcases List.mem_append.1 hg with hg | hg
            · exact hs.done.shown g hg
            · rw [List.mem_singleton.1 hg]; exact a3
        have hpl := plain_run (cfg := twoCfg W o) hrb hk hn hs.usable p1 hr
        have hfile := fun isFloat (ht : TwoTidy W d isFloat g') => two_file (o := o) hdesc ht hpl.stones hpl.ha hpl.gameId hpl.size hpl.komi hpl.result
        have hrw : RunWith W o st.gc g' := by
          refine ⟨twoCfg W o, st.printed, g, fuel, game, ?_, p1, hr⟩
          exact ⟨rfl, ⟨rfl, rfl⟩, fun _ => rfl, ⟨rfl, rfl⟩, ⟨rfl, rfl, rfl⟩, fun n hn x h1 h2 u => twoCallback_said hn o.verbose ⟨h1, h2⟩ u⟩
        have hturn : ∀ text, (o.sgfbase ≠ none → ∀ isFloat, TwoTidy W d isFloat g' → TwoFile W o d g' text) → InTurn W o d gc0 (gs ++ [⟨ms, res, lines, text⟩]) g'.runner.env.gc :=
          fun text ht => .snoc gs st.gc g' ⟨ms, res, lines, text⟩ hs.turns hrw c1 a8.symm ht
        have hlen' : ∀ text, (gs ++ [(⟨ms, res, lines, text⟩ : TwoGameRec)]).length = n + 1 := by
          intro text
          rw [List.length_append, hlen]; rfl
        unfold twoWrite at hx
        cases hb : o.sgfbase with
        | none =>
          simp only [hb] at hx
          subst hx
          refine ⟨fun st' h => ?_, (fun _ h => nomatch h)⟩
          cases h
          refine ⟨⟨ms, res, lines, []⟩, hu, a2, a7, hturn _ (fun h => absurd hb h), hprinted _, ?_, hdone _, hlen' _⟩
          have := hs.trace
          rw [hb] at this ⊢
          exact this
        | some base =>
          simp only [hb] at hx
          have crash : ∀ (tr : List JobEvent), (∀ isFloat, ¬ TwoTidy W d isFloat g') → Over W o d gc0 code intro started (⟨.crashed, g'.runner.env.user ++ [res.describe], tr, fun c => some (g'.runner.env.gc.ctl c)⟩ : TwoOut σ) := by
            intro tr hnt
            exact ⟨_, [], [], ⟨_, hturn [] (fun _ isFloat ht => absurd ht (hnt isFloat))⟩, hdone [], by rw [List.append_nil]; exact hprinted [], shows_nil _ _,
              .crashed (by rw [hlen']; omega) rfl (.inl ⟨(by rw [hb]; exact (fun h => nomatch h)), gs, _, st.gc, g', rfl, hs.turns, hrw, c1, hnt⟩)⟩
          cases hsg : twoSgf W desc g' with
          | error e =>
            simp only [hsg] at hx
            subst hx
            refine ⟨(fun _ h => nomatch h), fun out h => ?_⟩
            cases h
            refine crash _ (fun isFloat ht => ?_)
            obtain ⟨M, rec, q1, _⟩ := hfile isFloat ht
            rw [q1] at hsg
            cases hsg
          | ok Lr =>
            obtain ⟨L, rec⟩ := Lr
            simp only [hsg] at hx
            split at hx
            · cases hse : L.serialise W.E rec (some 79) with
              | error e =>
                simp only [hse] at hx
                subst hx
                refine ⟨(fun _ h => nomatch h), fun out h => ?_⟩
                cases h
                refine crash _ (fun isFloat ht => ?_)
                obtain ⟨M, rec', q1, q2⟩ := hfile isFloat ht
                rw [q1] at hsg
                cases hsg
                obtain ⟨t, q3, _⟩ := q2 (some 79)
                rw [q3] at hse
                cases hse
              | ok text =>
                simp only [hse] at hx
                subst hx
                refine ⟨fun st' h => ?_, (fun _ h => nomatch h)⟩
                cases h
                have htext : ∀ isFloat, TwoTidy W d isFloat g' → TwoFile W o d g' text := by
                  intro isFloat ht
                  obtain ⟨M, rec', q1, q2⟩ := hfile isFloat ht
                  rw [q1] at hsg
                  cases hsg
                  obtain ⟨t, q3, q4⟩ := q2 (some 79)
                  rw [q3] at hse
                  cases hse
                  exact q4
                refine ⟨⟨ms, res, lines, text⟩, hu, a2, a7, hturn _ (fun _ => htext), hprinted _, ?_, hdone _, hlen' _⟩
                have := hs.trace
                rw [hb] at this ⊢
                show st.trace ++ _ = _
                rw [this, List.map_append, List.map_singleton, twoFiles_snoc, List.length_map, hlen, List.append_assoc]
            · rename_i hopen
              subst hx
              refine ⟨(fun _ h => nomatch h), fun out h => ?_⟩
              cases h
              obtain ⟨text, htext⟩ : ∃ text, ∀ isFloat, TwoTidy W d isFloat g' → TwoFile W o d g' text := by
                by_cases hex : ∃ isFloat, TwoTidy W d isFloat g'
                · obtain ⟨isFloat, ht⟩ := hex
                  obtain ⟨M, rec', q1, q2⟩ := hfile isFloat ht
                  obtain ⟨t, q3, q4⟩ := q2 (some 79)
                  exact ⟨t, fun _ _ => q4⟩
                · exact ⟨[], fun isFloat ht => absurd ⟨isFloat, ht⟩ hex⟩
              refine ⟨_, [], [], ⟨_, hturn text (fun _ => htext)⟩, hdone text, by rw [List.append_nil]; exact hprinted text, shows_nil _ _,
                .noFile base (twoPath base n) (by simp) (by rw [hlen']; omega) rfl hb (by rw [hlen']; rfl) (by simpa using hopen) ?_ rfl⟩
              rw [List.dropLast_concat]
              exact hs.trace

/-- The rest of the series. -/
theorem two_games (hn : 2 ≤ o.size ∧ o.size ≤ 25) (hk : isWellFormedWord (W.strFloat o.komi) = true) {gc0 : GC σ} {code : Colour → Str} {intro : List Str} {started : List JobEvent}
    (hrb : Replaces W.replaceBad) (desc : Colour → Option EngineDesc) (hdesc : ∀ c, desc c = some (d c)) (fuel : Nat) : ∀ (k n : Nat) (st : TwoSt σ) (gs : List TwoGameRec), Sofar W o d gc0 code intro started n st gs → n + k = o.games.toNat →
    ∀ x, twoGames W o desc fuel k n st = some x →
    (∀ st', x = .ok st' → ∃ gs', Sofar W o d gc0 code intro started o.games.toNat st' gs') ∧ (∀ out, x = .error out → Over W o d gc0 code intro started out) := by
  intro k
  induction k with
  | zero =>
    intro n st gs hs hnk x hx
    cases hx
    refine ⟨fun st' h => ?_, (fun _ h => nomatch h)⟩
    cases h
    rw [← hnk]
    exact ⟨gs, hs⟩
  | succ k ih =>
    intro n st gs hs hnk x hx
    unfold twoGames at hx
    cases hg : twoGame W o desc fuel n st with
    | none => rw [hg] at hx; cases hx
    | some y =>
      rw [hg] at hx
      obtain ⟨h1, h2⟩ := two_game hn hk hs (by omega) hrb desc hdesc fuel y hg
      cases y with
      | error out =>
        cases hx
        exact ⟨(fun _ h => nomatch h), h2⟩
      | ok st' =>
        obtain ⟨g, hs'⟩ := h1 st' rfl
        exact ih (n + 1) st' _ hs' (by omega) x hx

/-- The descriptions of the players. -/
def byPlayer (b w : EngineDesc) : Colour → EngineDesc
  | .b => b
  | .w => w

/-- At the start. -/
theorem start_sofar {code : Colour → Str} {b w : Ctl σ} (hb : CtlOK True false b) (hw : CtlOK True false w) (db dw : EngineDesc) (started : List JobEvent) :
    Sofar W o (byPlayer db dw) { ctl := fun c => match c with | .b => b | .w => w, code := code, lateErrors := [], cautious := false } code (twoIntro o.verbose db dw) started 0
      ⟨{ ctl := fun c => match c with | .b => b | .w => w, code := code, lateErrors := [], cautious := false }, twoIntro o.verbose db dw, started⟩ [] := by
  refine ⟨?_, rfl, rfl, .nil, by simp [gamesText], ?_, ⟨(fun _ h => nomatch h), (fun _ h => nomatch h)⟩, rfl⟩
  · intro c
    cases c
    · exact ⟨hb.opened, hb.reported, hb.aliases⟩
    · exact ⟨hw.opened, hw.reported, hw.aliases⟩
  · cases o.sgfbase <;> simp [twoFiles]

/-- The whole series. -/
theorem two_play (hrb : Replaces W.replaceBad) (hn : 2 ≤ o.size ∧ o.size ≤ 25) (hk : isWellFormedWord (W.strFloat o.komi) = true) {code : Colour → Str} {b w : Ctl σ}
    (hb : CtlOK True false b) (hw : CtlOK True false w) {db dw : EngineDesc} {started : List JobEvent} {fuel : Nat} {out : TwoOut σ}
    (h : twoPlay W o code b w db dw started fuel = some out) : Over W o (byPlayer db dw) { ctl := fun c => match c with | .b => b | .w => w, code := code, lateErrors := [], cautious := false } code (twoIntro o.verbose db dw) started out := by
  unfold twoPlay at h
  have h0 := start_sofar (W := W) (o := o) (code := code) hb hw db dw started
  split at h
  · cases h
  · rename_i out' hg
    cases h
    exact (two_games hn hk hrb _ (d := byPlayer db dw) (fun c => by cases c <;> rfl) fuel _ _ _ _ h0 (by omega) _ hg).2 _ rfl
  · rename_i st hg
    cases h
    obtain ⟨gs, hs⟩ := (two_games hn hk hrb _ (d := byPlayer db dw) (fun c => by cases c <;> rfl) fuel _ _ _ _ h0 (by omega) _ hg).1 _ rfl
    obtain ⟨gc', c1, c2, _, _, _, c3, _⟩ := C58_close_players (fun _ => W.channel) st.gc (fun c => (hs.usable c).2.2)
    unfold twoFinish
    rw [c1]
    simp only
    rw [hs.late, List.nil_append] at c3
    have hlt : ∀ e, lateText (({ st with gc := gc' } : TwoSt σ).stop e) = join ['\n'] gc'.lateErrors := by
      intro e
      rw [c3]
      simp [lateText, TwoSt.stop]
    have hcl : ∀ e, BothClosed (({ st with gc := gc' } : TwoSt σ).stop e) := fun e c => ⟨_, rfl, c2 c⟩
    have fin : ∀ e, e = (if join ['\n'] gc'.lateErrors = [] then TwoEnd.done else .exit (join ['\n'] gc'.lateErrors)) →
        Over W o (byPlayer db dw) { ctl := fun c => match c with | .b => b | .w => w, code := code, lateErrors := [], cautious := false } code (twoIntro o.verbose db dw) started (({ st with gc := gc' } : TwoSt σ).stop e) := by
      intro e he
      exact ⟨gs, [], [], ⟨_, hs.turns⟩, hs.done, by rw [List.append_nil]; exact hs.printed, shows_nil _ _, .complete hs.count rfl (hcl _) hs.trace (by rw [hlt]; exact he)⟩
    unfold GC.describeLateErrors
    by_cases hl : gc'.lateErrors = []
    · rw [if_pos hl]
      exact fin _ (by rw [hl]; rfl)
    · rw [if_neg hl]
      cases hj : join ['\n'] gc'.lateErrors with
      | nil => exact fin _ (by rw [hj]; rfl)
      | cons c s => exact fin _ (by rw [hj]; rfl)

/-! ### Starting the engines -/

theorem askNone_post (C : Channel σ) {c : Ctl σ} (h : CtlOK True false c) {command : Str} (hw : isWellFormedWord command = true) :
    CPost True False false (c.askOrNone C command) ∧ ∀ s c', c.askOrNone C command = (.ok (some s), c') → Response C s := by
  have h1 := doCommand_post C h (command := command) (args := []) ⟨hw, fun _ h => nomatch h⟩
  have h2 := fun r c' => doCommand_response C c command [] (r := r) (c' := c')
  unfold Ctl.askOrNone
  cases hx : c.doCommand C command [] with
  | mk x c' =>
    rw [hx] at h1 h2
    cases x with
    | ok r => exact ⟨h1.1, by intro s c'' hs; cases hs; exact h2 _ _ rfl⟩
    | error e =>
      cases e with
      | badResponse m g => exact ⟨h1.1, by intro s c'' hs; cases hs⟩
      | channel e => exact ⟨⟨rfl, h1.1, h1.2.1, by rw [h1.2.2]; exact h.aliases⟩, by intro s c'' hs; cases hs⟩
      | value => exact h1.elim
      | channelIsClosed => exact h1.elim

theorem CPost.bind {lv : Prop} {b : Prop} {o : Bool} {α β : Type} {e : CExc} {c : Ctl σ} (h : CPost lv b o ((.error e, c) : Except CExc α × Ctl σ)) :
    CPost lv b o ((.error e, c) : Except CExc β × Ctl σ) := by
  cases e <;> exact h

theorem query_post (C : Channel σ) {c : Ctl σ} (h : CtlOK True false c) :
    CPost True False false (c.queryDescription C) ∧ ∀ n v d c', c.queryDescription C = (.ok (n, v, d), c') → ∀ s, n = some s ∨ v = some s ∨ d = some s → Response C s := by
  unfold Ctl.queryDescription
  obtain ⟨h1, r1⟩ := askNone_post C h (command := "name".toList) (by decide +kernel)
  cases hx : c.askOrNone C "name".toList with
  | mk x c1 =>
    rw [hx] at h1 r1
    cases x with
    | error e => exact ⟨h1.bind, by intro n v d c' hs; cases hs⟩
    | ok n =>
      obtain ⟨h2, r2⟩ := askNone_post C h1 (command := "version".toList) (by decide +kernel)
      simp only
      cases hy : c1.askOrNone C "version".toList with
      | mk y c2 =>
        rw [hy] at h2 r2
        cases y with
        | error e => exact ⟨h2.bind, by intro n v d c' hs; cases hs⟩
        | ok v =>
          have h3 := knownCommand_post C h2 (command := "gomill-describe_engine".toList) (by decide +kernel)
          simp only
          cases hz : c2.knownCommand C false "gomill-describe_engine".toList with
          | mk z c3 =>
            rw [hz] at h3
            cases z with
            | error e => exact ⟨h3.bind, by intro n v d c' hs; cases hs⟩
            | ok k =>
              cases k with
              | false =>
                refine ⟨h3, ?_⟩
                intro n' v' d' c' hs s hn
                cases hs
                rcases hn with rfl | rfl | hn
                · exact r1 _ _ rfl
                · exact r2 _ _ rfl
                · cases hn
              | true =>
                obtain ⟨h4, r4⟩ := askNone_post C h3 (command := "gomill-describe_engine".toList) (by decide +kernel)
                simp only
                cases hw : c3.askOrNone C "gomill-describe_engine".toList with
                | mk w c4 =>
                  rw [hw] at h4 r4
                  cases w with
                  | error e => exact ⟨h4.bind, by intro n v d c' hs; cases hs⟩
                  | ok d =>
                    refine ⟨h4, ?_⟩
                    intro n' v' d' c' hs s hn
                    cases hs
                    rcases hn with rfl | rfl | rfl
                    · exact r1 _ _ rfl
                    · exact r2 _ _ rfl
                    · exact r4 _ _ rfl

theorem setUp_post (W : TwoWorld σ) (hr : Replaces W.replaceBad) (chan : σ) (name : Str) :
    ∃ r x, twoSetUp W (Ctl.init chan name) = (r, x) ∧ (∀ kv ∈ x.aliases, isWellFormedWord kv.2 = true) ∧
      (∀ d, r = .ok d → CtlOK True false x ∧ ∃ c1 n v t, (Ctl.init chan name).checkProtocolVersion W.channel W.isTwo = (.ok (), c1) ∧
        c1.queryDescription W.channel = (.ok (n, v, t), x) ∧ EngineDesc.make W.replaceBad n v t = .ok d) ∧ (r = .error none → Objectionable W) := by
  have h0 : CtlOK True false (Ctl.init chan name) := ⟨rfl, (fun _ h => nomatch h), fun _ _ => rfl, (fun h => nomatch h)⟩
  have h1 := doCommand_post W.channel h0 (command := "protocol_version".toList) (args := []) ⟨by decide +kernel, fun _ h => nomatch h⟩
  have h2 := fun r c' => doCommand_response W.channel (Ctl.init chan name) "protocol_version".toList [] (r := r) (c' := c')
  have rest : ∀ c1 : Ctl σ, CtlOK True false c1 → ∃ r x, (match c1.queryDescription W.channel with
      | (.error (.channel e), c) => (.error (some e.msg), c)
      | (.error _, c) => (.error none, c)
      | (.ok (n, v, d), c) => match EngineDesc.make W.replaceBad n v d with
        | .error _ => (.error none, c)
        | .ok desc => (.ok desc, c) : Except (Option Str) EngineDesc × Ctl σ) = (r, x) ∧ (∀ kv ∈ x.aliases, isWellFormedWord kv.2 = true) ∧
      (∀ d, r = .ok d → CtlOK True false x ∧ ∃ n v t, c1.queryDescription W.channel = (.ok (n, v, t), x) ∧ EngineDesc.make W.replaceBad n v t = .ok d) ∧ (r = .error none → Objectionable W) := by
    intro c1 hc1
    obtain ⟨q1, q2⟩ := query_post W.channel hc1
    cases hy : c1.queryDescription W.channel with
    | mk y c2 =>
      rw [hy] at q1 q2
      cases y with
      | error e =>
        cases e with
        | badResponse m g => exact q1.1.elim
        | channel e => exact ⟨_, _, rfl, q1.2.2.2, (fun _ h => nomatch h), (fun h => nomatch h)⟩
        | value => exact q1.elim
        | channelIsClosed => exact q1.elim
      | ok q =>
        obtain ⟨n, v, d⟩ := q
        simp only
        have hq := q2 n v d c2 rfl
        cases hm : EngineDesc.make W.replaceBad n v d with
        | ok desc =>
          refine ⟨_, _, rfl, q1.aliases, ?_, (fun h => nomatch h)⟩
          intro d' hd
          cases hd
          exact ⟨q1, n, v, d, rfl, hm⟩
        | error e =>
          refine ⟨_, _, rfl, q1.aliases, (fun _ h => nomatch h), fun _ => .inr ?_⟩
          obtain ⟨_, v', c, k1, k2, k3⟩ := (C68_attributes W.replaceBad hr n v d).2 e hm
          exact ⟨v', c, hq v' (.inr (.inl k1)), k2, k3⟩
  have all : ∀ c1 : Ctl σ, CtlOK True false c1 → (Ctl.init chan name).checkProtocolVersion W.channel W.isTwo = (.ok (), c1) →
      ∃ r x, twoSetUp W (Ctl.init chan name) = (r, x) ∧ (∀ kv ∈ x.aliases, isWellFormedWord kv.2 = true) ∧
      (∀ d, r = .ok d → CtlOK True false x ∧ ∃ c1 n v t, (Ctl.init chan name).checkProtocolVersion W.channel W.isTwo = (.ok (), c1) ∧
        c1.queryDescription W.channel = (.ok (n, v, t), x) ∧ EngineDesc.make W.replaceBad n v t = .ok d) ∧ (r = .error none → Objectionable W) := by
    intro c1 hc1 he
    obtain ⟨r, x, k1, k2, k3, k4⟩ := rest c1 hc1
    refine ⟨r, x, ?_, k2, fun d hd => ?_, k4⟩
    · unfold twoSetUp
      rw [he]
      exact k1
    · obtain ⟨k5, n, v, t, k6, k7⟩ := k3 d hd
      exact ⟨k5, c1, n, v, t, he, k6, k7⟩
  cases hx : (Ctl.init chan name).doCommand W.channel "protocol_version".toList [] with
  | mk x c1 =>
    rw [hx] at h1 h2
    cases x with
    | ok v =>
      cases hv : W.isTwo v with
      | true =>
        refine all c1 h1.1 ?_
        unfold Ctl.checkProtocolVersion
        rw [hx]
        simp only [hv, if_true]
      | false =>
        obtain ⟨m, hpv⟩ : ∃ m, (Ctl.init chan name).checkProtocolVersion W.channel W.isTwo = (.error (.badResponse m none), c1) := by
          unfold Ctl.checkProtocolVersion
          rw [hx]
          simp only [hv]
          exact ⟨_, rfl⟩
        unfold twoSetUp
        rw [hpv]
        exact ⟨_, _, rfl, h1.1.aliases, (fun _ h => nomatch h), fun _ => .inl ⟨v, h2 _ _ rfl, hv⟩⟩
    | error e =>
      cases e with
      | badResponse m g =>
        refine all c1 h1.1 ?_
        unfold Ctl.checkProtocolVersion
        rw [hx]
      | channel e =>
        have hpv : (Ctl.init chan name).checkProtocolVersion W.channel W.isTwo = (.error (.channel e), c1) := by
          unfold Ctl.checkProtocolVersion
          rw [hx]
        unfold twoSetUp
        rw [hpv]
        exact ⟨_, _, rfl, by rw [h1.2.2]; exact h0.aliases, (fun _ h => nomatch h), (fun h => nomatch h)⟩
      | value => exact h1.elim
      | channelIsClosed => exact h1.elim

/-- Starting an engine. -/
theorem twoStart_cases (W : TwoWorld σ) (hr : Replaces W.replaceBad) (code : Str) (args : List Str) (c : Colour) (st : JobSt σ) :
    (∃ m, W.spawn { args, env := W.osEnviron, cwd := none, stderr := none } = .error m ∧
      twoStart W code args c st = (.error (some ("error starting subprocess for player ".toList ++ code ++ ":\n".toList ++ m)), st)) ∨
    ∃ r x, twoStart W code args c st = (r, ({ st with trace := st.trace ++ [startedBy W c args] } : JobSt σ).setCtl c x) ∧ (∀ kv ∈ x.aliases, isWellFormedWord kv.2 = true) ∧
      (∀ d, r = .ok d → CtlOK True false x ∧ NewPlayer W args ("player ".toList ++ code) x d) ∧ (r = .error none → Objectionable W) := by
  unfold twoStart
  cases hs : W.spawn (twoPopen W args) with
  | error m => exact .inl ⟨m, hs, rfl⟩
  | ok chan =>
    obtain ⟨r, x, h1, h2, h3, h4⟩ := setUp_post W hr chan ("player ".toList ++ code)
    refine .inr ⟨r, x, ?_, h2, (fun d hd => ?_), h4⟩
    · simp only [h1]
      rfl
    · obtain ⟨k1, c1, n, v, t, k2, k3, k4⟩ := h3 d hd
      exact ⟨k1, chan, c1, n, v, t, hs, k2, k3, k4⟩

theorem closePlayer_wf (W : JobWorld σ) (c : Colour) {st : JobSt σ} (h : ∀ c x, st.ctl c = some x → ∀ kv ∈ x.aliases, isWellFormedWord kv.2 = true) :
    (st.closePlayer W c).1 = .ok () := by
  unfold JobSt.closePlayer
  cases hx : st.ctl c with
  | none => rfl
  | some x =>
    obtain ⟨x', h1, _⟩ := safeClose_ok W.channel x (h c x hx)
    simp only [h1]

theorem closePlayers_wf (W : JobWorld σ) {st : JobSt σ} (h : ∀ c x, st.ctl c = some x → ∀ kv ∈ x.aliases, isWellFormedWord kv.2 = true) :
    (st.closePlayers W).1 = .ok () := by
  unfold JobSt.closePlayers
  have h1 := closePlayer_wf W .b h
  obtain ⟨_, h2, _⟩ := closePlayer_spec W .b st
  cases hx : st.closePlayer W .b with
  | mk r st1 =>
    rw [hx] at h1 h2
    simp only at h1 h2
    subst h1
    simp only
    unfold JobSt.closePlayer
    cases hy : st1.ctl .w with
    | none => rfl
    | some y =>
      obtain ⟨y', h3, _⟩ := safeClose_ok W.channel y (h .w y (by rw [← h2 .w (by decide)]; exact hy))
      simp only [h3]

/-- A failure to start the engines. -/
theorem startFailed (W : TwoWorld σ) {st : JobSt σ} (h : ∀ c x, st.ctl c = some x → ∀ kv ∈ x.aliases, isWellFormedWord kv.2 = true) (e : Option Str) :
    (twoStartFailed W e st).printed = [] ∧ (twoStartFailed W e st).trace = st.trace ∧
    (e = none → (twoStartFailed W e st).ending = .crashed) ∧
    (∀ msg, e = some msg → (twoStartFailed W e st).ending = .exit ("error creating players:\n".toList ++ msg ++ "\n".toList) ∧
      (∀ c, ((twoStartFailed W e st).ctl c).isSome = (st.ctl c).isSome) ∧ ∀ c x, (twoStartFailed W e st).ctl c = some x → x.closed = true) := by
  unfold twoStartFailed
  cases e with
  | none => exact ⟨rfl, rfl, fun _ => rfl, (fun _ h => nomatch h)⟩
  | some msg =>
    simp only
    have h1 := closePlayers_wf W.toJobWorld h
    obtain ⟨h2, h3⟩ := closePlayers_spec W.toJobWorld st
    obtain ⟨h4, _⟩ := h3 h1
    cases hx : st.closePlayers W.toJobWorld with
    | mk r st1 =>
      rw [hx] at h1 h2 h4
      simp only at h1 h2 h4
      subst h1
      refine ⟨rfl, h2.trace, (fun h => nomatch h), ?_⟩
      intro m hm
      cases hm
      exact ⟨rfl, h2.some, h4⟩

theorem introText_eq (v : Nat) (b w : EngineDesc) : twoIntro v b w = introText v b w := by
  unfold twoIntro introText orNone
  split <;> rename_i h
  · subst h; rfl
  · split <;> rename_i h'
    · subst h'; rfl
    · split
      · exact absurd rfl h
      · exact absurd rfl h'
      · rfl

/-- C101: the player codes are different. -/
theorem C101_codes (b w : Str) : Codes b w (twoCodes b w) := by
  unfold twoCodes
  by_cases h : b = w
  · rw [if_pos h]
    refine ⟨?_, fun hn => absurd h hn, fun _ => ⟨rfl, rfl⟩⟩
    intro he
    subst h
    have := List.append_cancel_left he
    revert this
    decide +kernel
  · rw [if_neg h]
    exact ⟨h, fun _ => ⟨rfl, rfl⟩, fun hn => absurd hn h⟩

/-- C101: what twogtp does, for any commands, engines and options (if `--size` is from 2 to 25, and the text of the komi is a GTP word). -/
theorem C101_series (W : TwoWorld σ) (hr : Replaces W.replaceBad) (o : TwoOpts) (hn : 2 ≤ o.size ∧ o.size ≤ 25) (hk : isWellFormedWord (W.strFloat o.komi) = true)
    (fuel : Nat) (out : TwoOut σ) (h : twoMain W o fuel = some out) : Series W o out := by
  unfold twoMain at h
  by_cases ha : o.args ≠ []
  · rw [if_pos ha] at h
    cases h
    exact .usage _ (.inl ⟨ha, rfl⟩) rfl rfl rfl (fun _ => rfl)
  rw [if_neg ha] at h
  have ha : o.args = [] := by simpa using ha
  cases hb : o.black with
  | none =>
    rw [if_pos (.inl (by rw [hb]; rfl))] at h
    cases h
    exact .usage _ (.inr ⟨ha, .inl hb, rfl⟩) rfl rfl rfl (fun _ => rfl)
  | some sb =>
  cases hw : o.white with
  | none =>
    rw [if_pos (.inr (by rw [hw]; rfl))] at h
    cases h
    exact .usage _ (.inr ⟨ha, .inr (.inr (.inl hw)), rfl⟩) rfl rfl rfl (fun _ => rfl)
  | some sw =>
  simp only [hb, hw, Option.getD_some] at h
  by_cases he : sb = [] ∨ sw = []
  · rw [if_pos he] at h
    cases h
    refine .usage _ (.inr ⟨ha, ?_, rfl⟩) rfl rfl rfl (fun _ => rfl)
    rcases he with rfl | rfl
    · exact .inr (.inl hb)
    · exact .inr (.inr (.inr hw))
  rw [if_neg he] at h
  have early : ∀ s, (o.black = some s ∨ o.white = some s) → (W.shlex s = none ∨ W.shlex s = some []) → out = .early .crashed → Series W o out := by
    intro s h1 h2 h3
    subst h3
    exact .badCommand ⟨s, h1, h2⟩ rfl rfl rfl (fun _ => rfl)
  cases hsb : W.shlex sb with
  | none => simp only [hsb, Option.some.injEq] at h; exact early sb (.inl hb) (.inl hsb) h.symm
  | some lb =>
  cases lb with
  | nil => simp only [hsb, Option.some.injEq] at h; exact early sb (.inl hb) (.inr hsb) h.symm
  | cons b bs =>
  cases hsw : W.shlex sw with
  | none => simp only [hsb, hsw, Option.some.injEq] at h; exact early sw (.inr hw) (.inl hsw) h.symm
  | some lw =>
  cases lw with
  | nil => simp only [hsb, hsw, Option.some.injEq] at h; exact early sw (.inr hw) (.inr hsw) h.symm
  | cons w ws =>
  simp only [hsb, hsw] at h
  have hcodes := C101_codes b w
  generalize twoCodes b w = code at h hcodes
  unfold twoRun at h
  have only : ∀ {c d : Colour} {args : List Str} {x : List JobEvent}, x = [startedBy W c args] → ((∃ a, startedBy W d a ∈ x) ↔ d = c) := by
    rintro c d args x rfl
    simp only [List.mem_singleton, startedBy, JobEvent.spawned.injEq]
    exact ⟨fun ⟨_, h, _⟩ => h, fun h => ⟨args, h, rfl⟩⟩
  rcases twoStart_cases W hr (code .b) (b :: bs) .b .init with ⟨m, s1, s2⟩ | ⟨r, x, s1, s2, s3, s4⟩
  · rw [s2] at h
    simp only [Option.some.injEq] at h
    subst h
    obtain ⟨f1, f2, _, f3⟩ := startFailed W (st := .init) (fun _ _ h => nomatch h) (some ("error starting subprocess for player ".toList ++ code .b ++ ":\n".toList ++ m))
    obtain ⟨f4, f5, f6⟩ := f3 _ rfl
    refine .notStarted sb sw b w bs ws code _ hb hw hsb hsw hcodes f1 (.inl (.inl ⟨f2, m, s1, rfl⟩)) ?_ f6 f4
    intro c
    rw [f2, ← Option.isSome_iff_exists, f5]
    exact ⟨(fun ⟨_, h⟩ => nomatch h), (fun h => nomatch h)⟩
  rw [s1] at h
  have hctl : ∀ (c : Colour) y, (({ (JobSt.init : JobSt σ) with trace := [] ++ [startedBy W .b (b :: bs)] } : JobSt σ).setCtl .b x).ctl c = some y → ∀ kv ∈ y.aliases, isWellFormedWord kv.2 = true := by
    intro c y hy
    cases c
    · cases hy; exact s2
    · cases hy
  cases r with
  | error e =>
    simp only [Option.some.injEq] at h
    subst h
    obtain ⟨f1, f2, f0, f3⟩ := startFailed W (e := e) hctl
    cases e with
    | none => exact .refused sb sw b w bs ws hb hw hsb hsw f1 (.inl f2) (s4 rfl) (f0 rfl)
    | some msg =>
      obtain ⟨f4, f5, f6⟩ := f3 _ rfl
      refine .notStarted sb sw b w bs ws code _ hb hw hsb hsw hcodes f1 (.inr (.inl f2)) ?_ f6 f4
      intro c
      refine (only f2).trans (Iff.trans (Iff.trans ?_ (iff_of_eq (congrArg (· = true) (f5 c)).symm)) Option.isSome_iff_exists)
      cases c <;> simp [JobSt.setCtl, JobSt.init]
  | ok db =>
    simp only at h
    obtain ⟨hcb, hdb⟩ := s3 db rfl
    rcases twoStart_cases W hr (code .w) (w :: ws) .w (({ (JobSt.init : JobSt σ) with trace := [] ++ [startedBy W .b (b :: bs)] } : JobSt σ).setCtl .b x) with ⟨m, t1, t2⟩ | ⟨r, y, t1, t2, t3, t4⟩
    · erw [t2] at h
      simp only [Option.some.injEq] at h
      subst h
      obtain ⟨f1, f2, _, f3⟩ := startFailed W hctl (some ("error starting subprocess for player ".toList ++ code .w ++ ":\n".toList ++ m))
      obtain ⟨f4, f5, f6⟩ := f3 _ rfl
      refine .notStarted sb sw b w bs ws code _ hb hw hsb hsw hcodes f1 (.inl (.inr ⟨f2, m, t1, rfl⟩)) ?_ f6 f4
      intro c
      refine (only f2).trans (Iff.trans (Iff.trans ?_ (iff_of_eq (congrArg (· = true) (f5 c)).symm)) Option.isSome_iff_exists)
      cases c <;> simp [JobSt.setCtl, JobSt.init]
    · erw [t1] at h
      have hctl2 : ∀ (c : Colour) z, (({ (({ (JobSt.init : JobSt σ) with trace := [] ++ [startedBy W .b (b :: bs)] } : JobSt σ).setCtl .b x) with
          trace := [startedBy W .b (b :: bs)] ++ [startedBy W .w (w :: ws)] } : JobSt σ).setCtl .w y).ctl c = some z → ∀ kv ∈ z.aliases, isWellFormedWord kv.2 = true := by
        intro c z hz
        cases c
        · cases hz; exact s2
        · cases hz; exact t2
      cases r with
      | error e =>
        simp only [Option.some.injEq] at h
        subst h
        obtain ⟨f1, f2, f0, f3⟩ := startFailed W (e := e) hctl2
        cases e with
        | none => exact .refused sb sw b w bs ws hb hw hsb hsw f1 (.inr f2) (t4 rfl) (f0 rfl)
        | some msg =>
          obtain ⟨f4, f5, f6⟩ := f3 _ rfl
          refine .notStarted sb sw b w bs ws code _ hb hw hsb hsw hcodes f1 (.inr (.inr f2)) ?_ f6 f4
          intro c
          refine iff_of_true ?_ (Option.isSome_iff_exists.1 ((f5 c).trans (by cases c <;> rfl)))
          cases c
          · exact ⟨b :: bs, by erw [f2]; exact List.mem_cons_self⟩
          · exact ⟨w :: ws, by erw [f2]; exact List.mem_cons_of_mem _ List.mem_cons_self⟩
      | ok dw =>
        obtain ⟨hcw, hdw⟩ := t3 dw rfl
        obtain ⟨gs, extra, ms, ⟨gc, g0⟩, g1, g2, g3, g4⟩ := two_play hr hn hk hcb hcw h
        rw [introText_eq] at g2
        exact .played sb sw b w bs ws code _ gc (byPlayer db dw) gs extra ms hb hw hsb hsw hcodes hdb hdw rfl g0 g1 g2 g3 g4

/-- C101: twogtp always finishes. -/
theorem C101_terminates (W : TwoWorld σ) (o : TwoOpts) (hn : 2 ≤ o.size ∧ o.size ≤ 25) (hk : isWellFormedWord (W.strFloat o.komi) = true) (hr : Replaces W.replaceBad)
    (fuel : Nat) (hf : 1000 ≤ fuel) : ∃ out, twoMain W o fuel = some out := by
  have game : ∀ desc d n st gc0 code intro started gs, Sofar W o d gc0 code intro started n st gs → ∃ x, twoGame W o desc fuel n st = some x := by
    intro desc d n st gc0 code intro started gs hs
    unfold twoGame
    cases hp : (GtpGame.init (twoCfg W o) st.gc st.printed (some 1000) none).prepare (fun _ => W.channel) (twoCfg W o) with
    | mk r g =>
      cases r with
      | error e => exact ⟨_, rfl⟩
      | ok u =>
        have hg : Ready (fun _ => W.channel) (twoCfg W o) g := .prepare _ _ _ _ _ hs.usable hp
        obtain ⟨_, i3, _, _⟩ := init_prepared hp
        obtain ⟨⟨r, g', gm⟩, hx⟩ := C58_terminates (fun _ => W.channel) (twoCfg W o) hk hn.2 W.strFloat hg 1000 i3 fuel (by omega)
        simp only [hx]
        cases r with
        | error e => exact ⟨_, rfl⟩
        | ok u =>
          simp only
          cases g'.result <;> exact ⟨_, rfl⟩
  have games : ∀ desc d, (∀ c, desc c = some (d c)) → ∀ gc0 code intro started k n st gs, Sofar W o d gc0 code intro started n st gs → n + k = o.games.toNat → ∃ x, twoGames W o desc fuel k n st = some x := by
    intro desc d hdesc gc0 code intro started k
    induction k with
    | zero => intro n st gs _ _; exact ⟨_, rfl⟩
    | succ k ih =>
      intro n st gs hs hnk
      obtain ⟨x, hx⟩ := game desc d n st gc0 code intro started gs hs
      unfold twoGames
      rw [hx]
      cases x with
      | error out => exact ⟨_, rfl⟩
      | ok st' =>
        obtain ⟨g, hs'⟩ := (two_game hn hk hs (by omega) hr desc hdesc fuel _ hx).1 st' rfl
        exact ih (n + 1) st' _ hs' (by omega)
  have play : ∀ (code : Colour → Str) (b w : Ctl σ) db dw started, CtlOK True false b → CtlOK True false w → ∃ out, twoPlay W o code b w db dw started fuel = some out := by
    intro code b w db dw started hb hw
    have h0 := start_sofar (W := W) (o := o) (code := code) hb hw db dw started
    unfold twoPlay
    split
    · rename_i hx
      obtain ⟨x, hy⟩ := games (fun c => match c with | .b => some db | .w => some dw) (byPlayer db dw) (fun c => by cases c <;> rfl) _ _ _ _ o.games.toNat 0 _ _ h0 (by omega)
      exact absurd (hx.symm.trans hy) (fun h => nomatch h)
    · exact ⟨_, rfl⟩
    · exact ⟨_, rfl⟩
  unfold twoMain
  split
  · exact ⟨_, rfl⟩
  · split
    · exact ⟨_, rfl⟩
    · split
      · rename_i b bs w ws _ _
        unfold twoRun
        generalize twoCodes b w = code
        rcases twoStart_cases W hr (code .b) (b :: bs) .b .init with ⟨m, s1, s2⟩ | ⟨r, x, s1, s2, s3, s4⟩
        · rw [s2]; exact ⟨_, rfl⟩
        · rw [s1]
          cases r with
          | error e => exact ⟨_, rfl⟩
          | ok db =>
            simp only
            rcases twoStart_cases W hr (code .w) (w :: ws) .w (({ (JobSt.init : JobSt σ) with trace := [] ++ [startedBy W .b (b :: bs)] } : JobSt σ).setCtl .b x) with ⟨m, t1, t2⟩ | ⟨r, y, t1, t2, t3, t4⟩
            · erw [t2]; exact ⟨_, rfl⟩
            · erw [t1]
              cases r with
              | error e => exact ⟨_, rfl⟩
              | ok dw => exact play code x y db dw _ (s3 db rfl).1 (t3 dw rfl).1
      · exact ⟨_, rfl⟩

/-! ### A concrete run -/

/-- Two engines. -/
def twoExample : TwoWorld Table := { exampleWorld "B2" "resign" with shlex := fun s => if s = [' '] then some [] else some [s], ioText := fun _ => "no".toList }

/-- The options. -/
def twoExampleOpts : TwoOpts where
  black := some "b".toList
  white := some "w".toList
  komi := 13/2
  size := 9
  games := 2
  verbose := 1
  sgfbase := some "game".toList

/-- What can be seen of a run. -/
def TwoOut.seen (out : TwoOut Table) : TwoEnd × List String × List String × List (Option Bool) :=
  (out.ending, out.printed.map String.ofList,
    out.trace.map (fun e => match e with
      | .opened p => "open " ++ String.ofList p
      | .spawned _ p => "start " ++ String.ofList (join [' '] p.args)
      | .wrote p _ => "write " ++ String.ofList p
      | .closed p => "close " ++ String.ofList p
      | _ => ""),
    [(out.ctl .b).map Ctl.closed, (out.ctl .w).map Ctl.closed])

set_option synthInstance.maxHeartbeats 400000 in
set_option synthInstance.maxSize 1000 in
/-- C101 for concrete runs: a series of two games; a second engine that isn't there; and a blank command. -/
theorem C101_witness :
    (twoMain twoExample twoExampleOpts 10).map TwoOut.seen =
      some (.exit "failure response from 'quit' to player b:\nnot now\nfailure response from 'quit' to player w:\nnot now".toList, ["Black: GNU Go:3.8", "White: GNU Go:3.8", "B B2", "b beat w B+R", "B B2", "b beat w B+R"],
        ["start b", "start w", "open game000.sgf", "write game000.sgf", "close game000.sgf", "open game001.sgf", "write game001.sgf", "close game001.sgf"], [some true, some true]) ∧
    (twoMain twoExample { twoExampleOpts with white := some "x".toList } 10).map TwoOut.seen =
      some (.exit "error creating players:\nerror starting subprocess for player x:\nNo such file\n".toList, [], ["start b"], [some true, none]) ∧
    (twoMain twoExample { twoExampleOpts with white := some " ".toList } 10).map TwoOut.seen = some (.crashed, [], [], [none, none]) := by
  decide +kernel

end Gomill.Gtp
