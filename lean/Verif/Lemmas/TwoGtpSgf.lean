import Verif.Spec.TwoGtpSgf
import Verif.Lemmas.JobTotal
/-
The SGF files written by twogtp.
-/
namespace Gomill.Gtp
open Py
open Gomill.Sgf
open Spec

variable {σ : Type} {W : TwoWorld σ} {o : TwoOpts} {d : Colour → EngineDesc}

/-- The record, after writing and loading. -/
theorem TwoRecord.congr {g : GtpGame σ (List Str)} {P : Presenter}
    {seq seq' : List PropMap} (h : TwoRecord W o d g P seq) (hs : List.Forall₂ SameMap seq seq') : TwoRecord W o d g P seq' := by
  have hmv : Sgf.getSetupAndMoves P.size seq' = Sgf.getSetupAndMoves P.size seq :=
    (getSetupAndMoves_congr _ (hs.imp (fun _ _ h => sameMoves_of_same h))).symm
  cases hs with
  | nil => have := h.length; simp at this
  | @cons r r' l l' hr hl =>
    have hget : ∀ k, lookup r' k = lookup r k := fun k => (hr k).symm
    have hh : ∀ {p : PropMap → Prop}, p r' → ∀ root, (r' :: l').head? = some root → p root := by
      intro p hp root hx
      cases hx
      exact hp
    refine ⟨h.presenter, ?_, ?_, hh ?_, hh ?_, hh (HasText.congr (h.result r rfl) (hget _)), hh ?_, hh (HasText.congr (h.black r rfl) (hget _)),
      hh (HasText.congr (h.white r rfl) (hget _)), hh (HasText.congr (h.gameName r rfl) (hget _)), hh (Says.congr (h.rootComment r rfl) (hget _)), ?_, ?_⟩
    · have := h.length
      rw [← this]
      simp [hl.length_eq]
    · obtain ⟨b, h1, h2⟩ := h.moves
      exact ⟨b, by rw [hmv]; exact h1, h2⟩
    · have := h.komi r rfl
      unfold getKomi at this ⊢
      rw [nodeGet_congr (hget _)]
      exact this
    · have := h.handicap r rfl
      unfold getHandicap at this ⊢
      rw [nodeGet_congr (hget _)]
      exact this
    · obtain ⟨a, v, h1, h2⟩ := h.application r rfl
      exact ⟨a, v, by rw [nodeGet_congr (hget _)]; exact h1, h2⟩
    · have h1 := h.moveComments
      have h2 : List.Forall₂ SameMap l.dropLast l'.dropLast := by
        rw [List.dropLast_eq_take, List.dropLast_eq_take, hl.length_eq]
        exact List.forall₂_take _ hl
      simp only [List.tail_cons] at h1 ⊢
      exact JobRecord.congr.comments_congr h1 h2
    · intro m hm
      simp only [List.tail_cons] at hm
      cases hlast : l.getLast? with
      | none =>
        have h0 : l = [] := List.getLast?_eq_none_iff.1 hlast
        subst h0
        cases hl
        cases hm
      | some m0 =>
        have hsame : SameMap m0 m := by
          obtain ⟨a, b, i, j, e1, e2, _, e4⟩ := forall₂_init_last hl (by rintro rfl; cases hlast)
          rw [e1, List.getLast?_concat] at hlast
          rw [e2, List.getLast?_concat] at hm
          cases hlast
          cases hm
          exact e4
        exact Says.congr (h.lastComment m0 hlast) (hsame _).symm

/-- The record made by twogtp. -/
theorem two_annot {desc : Colour → Option EngineDesc} (hd : ∀ c, desc c = some (d c)) {g : GtpGame σ (List Str)} {isFloat : Rat → Prop} (h : TwoTidy W d isFloat g)
    (hst : g.runner.handicapStones = none) (hha : g.runner.haProp = none) (hid : g.gameId = none) (hsz : g.runner.boardSize = o.size) (hkm : g.runner.komi = o.komi)
    (hres : g.runner.result.map Res.sgfResult = g.result.map (fun r => r.res.sgfResult)) :
    ∃ M rec, twoSgf W desc g = .ok (M, rec) ∧ rec.encoding = "UTF-8".toList ∧ Session W.E W.F M ∧ M.games = [rec] ∧
      Declares W.E (M.heap.props rec.root) "UTF-8".toList ∧ TwoRecord W o d g rec.presenter (M.mainSequence rec) := by
  have hF := h.floats.chars
  have hr := h.runner
  obtain ⟨M0, rec, root0, nodes0, a1, u, a2, A0, a3, a4, a5, a6, a7, a8, a9⟩ := annot_start h.names h.utf8.1 h.utf8.2 h.floats (Session.start (E := W.E) (F := W.F)) h.version h.date hr
  have hname : ∀ c, utf8Valid (nameOf true (g.runner.env.gc.code c) (d c)) = true := by
    intro c
    unfold nameOf
    rw [if_pos rfl]
    cases hs : (d c).short with
    | none => exact h.code c
    | some s =>
      simp only
      split
      · exact h.code c
      · exact h.short c s hs
  -- Gtp_game.make_sgf
  obtain ⟨M1, r1, b1, A1, c1, _, e1⟩ := A0.set u ['P', 'B'] (by decide) (some (nameOf true (g.runner.env.gc.code .b) (d .b))) (by rintro s ⟨⟩; exact hname .b)
  obtain ⟨M2, r2, b2, A2, c2, _, e2⟩ := A1.set u ['P', 'W'] (by decide) (some (nameOf true (g.runner.env.gc.code .w) (d .w))) (by rintro s ⟨⟩; exact hname .w)
  obtain ⟨M3, r3, b3, A3, c3, d3, _⟩ := A2.set u ['G', 'N'] (by decide) none (fun _ h => nomatch h)
  obtain ⟨M4, r4, n4, b4, A4, c4, d4⟩ := A3.add u (g.result.map (fun r => describeScoring r g.playerScores)) (by
    intro x hx
    cases hrr : g.result with
    | none => rw [hrr] at hx; cases hx
    | some r => rw [hrr] at hx; cases hx; exact tidy_scoring h.result hrr)
  have hmk : g.makeSgf W.E W.F ⟨[], []⟩ W.version W.date desc = .ok (M4, rec) := by
    unfold GtpGame.makeSgf
    simp only [bind, Except.bind, a1]
    have hlast : M0.games.getLast? = some rec := by rw [A0.pos.games]; simp
    rw [hlast]
    simp only [hd, playerName_eq]
    simp only [Option.map_some] at b1 b2
    simp only [b1, b2]
    have hgn : gameIdName g.gameId = (none : Option Str).map .str := by rw [hid]; rfl
    rw [hgn]
    simp only [b3, b4]
    rfl
  -- AP
  have hC : AsciiCompatible rec.presenter.codec := by rw [u.codec]; exact utf8_ok
  have henc : ∀ s, Encodable rec.presenter s := fun s => ⟨s, by rw [u.codec]; rfl⟩
  have tAP : rec.presenter.lookupType ['A', 'P'] = some .AP := by rw [u.presenter]; rfl
  have iAP : ValidIdent ['A', 'P'] := ⟨by decide, by decide, by decide⟩
  obtain ⟨M5, b5, p5⟩ := A4.pos.setMaybe hF u.h1 u.h2 ['A', 'P'] iAP (by decide) tAP (some (.pair ("Gomill twogtp".toList, W.version))) (by rintro x ⟨⟩; exact ⟨henc _, henc _⟩)
  have gAP := get_setMaybe u.h1 u.h2 hC isFloat u.fl r4 ['A', 'P'] iAP (by decide) tAP (.pair ("Gomill twogtp".toList, W.version)) ⟨henc _, henc _⟩
    ⟨(by decide +kernel : utf8Valid "Gomill twogtp".toList = true), h.version⟩
  have f5 : ∀ k, k ≠ ['A', 'P'] → lookup (Sgf.setMaybe rec.presenter r4 ['A', 'P'] (some (.pair ("Gomill twogtp".toList, W.version)))) k = lookup r4 k := lookup_setMaybe _ _ _ _
  generalize Sgf.setMaybe rec.presenter r4 ['A', 'P'] (some (.pair ("Gomill twogtp".toList, W.version))) = r5 at *
  have hmk2 : twoSgf W desc g = .ok (M5, rec) := by
    unfold twoSgf
    simp only [hmk, b5]
  have hn4 : n4 = [] ↔ g.runner.moves = [] := by
    rw [d4]
    constructor
    · intro h; rw [h] at a3; exact List.length_eq_zero_iff.1 a3.symm
    · intro h; rw [h] at a3; exact List.length_eq_zero_iff.1 a3
  have hroot := p5.root_props
  have hsame : List.Forall₂ SameMoves (root0 :: nodes0) (r5 :: n4) := by
    cases A4.same with
    | cons a b =>
      refine .cons ?_ b
      intro k hk
      have hki : k ≠ ['A', 'P'] := by rintro rfl; revert hk; decide
      rw [a k hk, find_eq_lookup, find_eq_lookup, f5 k hki]
  have hlk : ∀ k, k ≠ ['A', 'P'] → k ∉ annotKeys → lookup r5 k = lookup root0 k := fun k h1 h2 => (f5 k h1).trans (A4.others k h2)
  refine ⟨M5, rec, hmk2, a2, p5.session, by rw [p5.games]; rfl, ?_, ?_⟩
  · rw [hroot]
    unfold Declares at a4 ⊢
    rw [hlk _ (by decide) (by decide)]
    exact a4
  · rw [p5.seq]
    have hh : ∀ {p : PropMap → Prop}, p r5 → ∀ root, (r5 :: n4).head? = some root → p root := by
      intro p hp root hx
      cases hx
      exact hp
    refine ⟨by rw [u.presenter, hsz], ?_, ?_, hh ?_, hh ?_, hh ?_, hh ?_, hh ?_, hh ?_, hh ?_, hh ?_, A4.mids, ?_⟩
    · have := hsame.length_eq
      simp only [List.length_cons] at this ⊢
      omega
    · obtain ⟨b, x1, x2, x3⟩ := a5 ⟨(0, 0), by unfold Go.OnBoard; simp; have := hr.size; omega, by rw [hst]; simp⟩
      refine ⟨b, ?_, by rw [← hsz]; exact x2, ?_⟩
      · rw [← getSetupAndMoves_congr _ hsame]
        have := A0.pos.seq
        unfold Lib.getSetupAndMoves at x1
        rw [this] at x1
        exact x1
      · intro p
        rw [x3, handicapPosition, hst]
        simp
    · unfold getKomi at a6 ⊢
      rw [nodeGet_congr (hlk _ (by decide) (by decide)), a6, hkm]
    · have := a7 (fun k hk => by rw [hha] at hk; cases hk)
      rw [hha] at this
      unfold getHandicap at this ⊢
      rw [nodeGet_congr (hlk _ (by decide) (by decide))]
      exact this
    · rw [← hres]
      refine HasText.congr a8 ?_
      rw [f5 _ (by decide), c4 _ (by decide), c3 _ (by decide), c2 _ (by decide), c1 _ (by decide)]
    · obtain ⟨v', x1, x2⟩ := gAP
      cases v' <;> simp only [Reads] at x2
      rename_i q
      obtain ⟨a, v⟩ := q
      exact ⟨a, v, x1, x2⟩
    · have h1 : HasText rec.presenter ['P', 'B'] (some (nameOf true (g.runner.env.gc.code .b) (d .b))) r1 := ⟨(fun h => nomatch h), fun t ht => by cases ht; exact e1 _ rfl⟩
      refine HasText.congr h1 ?_
      rw [f5 _ (by decide), c4 _ (by decide), c3 _ (by decide), c2 _ (by decide)]
    · have h1 : HasText rec.presenter ['P', 'W'] (some (nameOf true (g.runner.env.gc.code .w) (d .w))) r2 := ⟨(fun h => nomatch h), fun t ht => by cases ht; exact e2 _ rfl⟩
      refine HasText.congr h1 ?_
      rw [f5 _ (by decide), c4 _ (by decide), c3 _ (by decide)]
    · refine ⟨fun _ => ?_, (fun _ h => nomatch h)⟩
      rw [f5 _ (by decide), c4 _ (by decide), d3 rfl, c2 _ (by decide), c1 _ (by decide)]
      exact a9 _ (by decide)
    · have := A4.rootC
      rw [List.nil_append] at this
      have h5 := Says.congr this (f5 ['C'] (by decide))
      by_cases hm : g.runner.moves = []
      · rw [if_pos (hn4.2 hm)] at h5
        rw [if_pos hm]
        have h0 : (g.runner.moves.map (fun x => x.2.2)).getLast?.join.toList = [] := by rw [hm]; rfl
        rw [h0] at h5
        simpa [endTexts, List.append_assoc] using h5
      · rw [if_neg (fun h => hm (hn4.1 h))] at h5
        rw [if_neg hm]
        exact h5
    · intro m hm
      have hne : n4 ≠ [] := by rintro rfl; cases hm
      obtain ⟨m', x1, x2⟩ := A4.lastC hne
      simp only [List.tail_cons] at hm
      rw [x1] at hm
      cases hm
      simpa [endTexts, List.append_assoc] using x2

/-- The file. -/
theorem two_file {desc : Colour → Option EngineDesc} (hd : ∀ c, desc c = some (d c)) {g : GtpGame σ (List Str)} {isFloat : Rat → Prop} (h : TwoTidy W d isFloat g)
    (hst : g.runner.handicapStones = none) (hha : g.runner.haProp = none) (hid : g.gameId = none) (hsz : g.runner.boardSize = o.size) (hkm : g.runner.komi = o.komi)
    (hres : g.runner.result.map Res.sgfResult = g.result.map (fun r => r.res.sgfResult)) :
    ∃ M rec, twoSgf W desc g = .ok (M, rec) ∧ ∀ wrap, ∃ text, M.serialise W.E rec wrap = .ok text ∧ TwoFile W o d g text := by
  obtain ⟨M, rec, a1, a2, a4, a5, a6, a7⟩ := two_annot (o := o) hd h hst hha hid hsz hkm hres
  refine ⟨M, rec, a1, ?_⟩
  intro wrap
  have hP := a7.presenter
  obtain ⟨s, b1, b2⟩ := C54_round_trip h.floats.chars h.names a4 (o := 0) (g := rec) (by rw [a5]; rfl) (by rw [hP]; rfl) (by rw [a2]; exact a6)
    (by rw [a2, h.utf8.2]; exact utf8_ok) wrap
  refine ⟨s, b1, ?_⟩
  intro M1
  obtain ⟨M2, g2, c1, c2, c3, c4, _⟩ := b2 M1
  refine ⟨M2, g2, c1, c2, ?_⟩
  have : g2.presenter = rec.presenter := by rw [c3, a2, h.utf8.2, hP]; rfl
  rw [this]
  exact a7.congr c4

/-! ### The games -/

section
variable {cfg : GtpCfg (List Str)} {C : Colour → Channel σ} {gc : GC σ} {u : List Str} {g g' : GtpGame σ (List Str)} {limit : Option Int} {gameId : Option Str} {fmt : Rat → Str} {fuel : Nat}
  {game : Option Game}

theorem init_kept {r : Except GExc Unit} (h : (GtpGame.init cfg gc u limit gameId).prepare C cfg = (r, g)) :
    g.gameId = gameId ∧ g.runner.handicapStones = none ∧ g.runner.haProp = none ∧ g.runner.boardSize = cfg.boardSize ∧ g.runner.komi = cfg.komi ∧ g.runner.moves = [] ∧
      g.runner.result = none ∧ g.runner.finalDiagnostics = none := by
  unfold GtpGame.prepare Runner.prepare at h
  simp only [GtpGame.init, Runner.init, ne_eq, not_true_eq_false, if_false, Runner.call] at h
  cases hx : (gtpBackend C cfg).startNewGame cfg.boardSize cfg.komi ⟨gc, none, u, []⟩ with
  | mk x env =>
    rw [hx] at h
    cases x <;> cases h <;> exact ⟨rfl, rfl, rfl, rfl, rfl, rfl, rfl, rfl⟩

theorem utf8_comments (hr : Replaces cfg.replaceBad) : Utf8Comments (gtpBackend C cfg) := by
  intro c env s hs
  change (getLastMoveComment C cfg c env).1 = _ at hs
  unfold getLastMoveComment at hs
  split at hs
  · cases hs
  · cases hs
  · rename_i t gc _
    simp only [Except.ok.injEq] at hs
    split at hs
    · cases hs
    · cases hs
      unfold sanitiseUtf8
      split
      · assumption
      · rename_i hv
        exact hr.valid _ (by simpa using hv)

/-- What is known of the record of a completed game, whatever the engines say. -/
structure PlainRun (cfg : GtpCfg (List Str)) (gameId : Option Str) (g : GtpGame σ (List Str)) : Prop where
  stones : g.runner.handicapStones = none
  ha : g.runner.haProp = none
  gameId : g.gameId = gameId
  size : g.runner.boardSize = cfg.boardSize
  komi : g.runner.komi = cfg.komi
  result : g.runner.result.map Res.sgfResult = g.result.map (fun r => r.res.sgfResult)
  comments : ∀ x ∈ g.runner.moves, ∀ s, x.2.2 = some s → utf8Valid s = true
  final : ∀ c s, g.runner.finalDiagnostics = some (c, s) → utf8Valid s = true
  moves : ∀ x ∈ g.runner.moves, ∀ p, x.2.1 = some p → Go.OnBoard cfg.boardSize p

theorem plain_run (hr : Replaces cfg.replaceBad) (hk : isWellFormedWord cfg.komiText = true) (hn : 2 ≤ cfg.boardSize ∧ cfg.boardSize ≤ 25) (hgc : Usable gc)
    (hp : (GtpGame.init cfg gc u limit gameId).prepare C cfg = (.ok (), g)) (hrun : g.run C cfg fmt fuel = some (.ok (), g', game)) : PlainRun cfg gameId g' := by
  have hg : Ready C cfg g := .prepare _ _ _ _ _ hgc hp
  obtain ⟨i1, i2, i3, i4, i5, i6, i7, i8⟩ := init_kept hp
  obtain ⟨_, _, _, _, h4, _⟩ := C58_run C cfg hk hn fmt hg fuel _ g' game hrun
  obtain ⟨_, _, _, res, rr, _, k1, k2, _, _, _, _, _, _, k3, _⟩ := h4 rfl
  obtain ⟨r1, x, c1, c2, c3, env', c4⟩ := gtpRun_cases C cfg fmt fuel g _ g' game hrun
  have hinv := run_inv (utf8_comments hr) fmt i6 i8 c1
  obtain ⟨hmv, _, _⟩ := C31_run (gtpBackend C cfg) fmt g.runner hg.prepared (by rw [i4]; exact hn.2) fuel r1 x game c1
  have hr1 : r1 = .ok () := by
    cases r1 with
    | ok u => rfl
    | error e => exact absurd (c2 e rfl).1 (fun h => nomatch h)
  refine ⟨by rw [c4]; exact hinv.stones.trans i2, by rw [c4]; exact hinv.ha.trans i3, ?_, by rw [c4]; exact hinv.size.trans i4, by rw [c4]; exact hinv.komi.trans i5,
    by rw [k1, k2]; simp only [Option.map_some, k3], by rw [c4]; exact hinv.comments, by rw [c4]; exact hinv.final, ?_⟩
  · have hx : x.result = some rr := by rw [← k2, c4]
    have hf := c3 hr1 rr hx
    unfold GtpGame.finish at hf
    simp only at hf
    cases hcp : x.env.gc.cpuTimes C cfg.cpuFloat with
    | mk v gc' =>
      rw [hcp] at hf
      cases v with
      | error e => cases hf
      | ok v =>
        simp only at hf
        injection hf with _ hf
        rw [← hf]
        exact i1
  · rw [c4]
    show ∀ y ∈ x.moves, ∀ p, y.2.1 = some p → Go.OnBoard cfg.boardSize p
    rw [← i4]
    intro y hy p hyp
    have hxm : (y.1, y.2.1) ∈ movesOf x := List.mem_map.2 ⟨y, hy, rfl⟩
    rcases hmv with hmv | ⟨b0, first, hh, e, gm, _, _, hpl, hh'⟩
    · rw [hmv] at hxm; cases hxm
    · refine played_onBoard hpl (y.1, y.2.1) ?_ p hyp
      rcases hh' with hh' | ⟨m, c, y', hh', _⟩
      · rw [← hh']; exact hxm
      · rw [hh']; exact List.mem_append_left _ hxm

/-- The texts in a completed game. -/
theorem run_tidy {f : Fixed} (hC : ∀ c, TextChannel Tidy (C c)) (hf : FixedT Tidy f) (hfmt : ∀ q, Tidy (fmt q)) (hkt : Tidy cfg.komiText)
    (hk : isWellFormedWord cfg.komiText = true) (hn : 2 ≤ cfg.boardSize ∧ cfg.boardSize ≤ 25) (hgc : Usable gc) (hgt : GCT Tidy f gc)
    (hp : (GtpGame.init cfg gc u limit gameId).prepare C cfg = (.ok (), g)) (hrun : g.run C cfg fmt fuel = some (.ok (), g', game)) :
    EnvT Tidy f g'.runner.env ∧ ∃ rr r, g'.runner.result = some rr ∧ Tidy rr.sgfResult ∧ g'.result = some r ∧ Tidy r.describe ∧ r.playerB = f.code .b ∧ r.playerW = f.code .w := by
  have hg : Ready C cfg g := .prepare _ _ _ _ _ hgc hp
  obtain ⟨i1, i2, i3, i4, i5, i6, i7, i8⟩ := init_kept hp
  have hB := gtpBackend_texts tidyClass hC hf cfg hkt
  have henv : EnvT Tidy f g.runner.env := by
    have h0 : EnvT Tidy f (GtpGame.init cfg gc u limit gameId).runner.env := ⟨hgt, fun _ h => nomatch h⟩
    unfold GtpGame.prepare at hp
    cases hq : (GtpGame.init cfg gc u limit gameId).runner.prepare (gtpBackend C cfg) with
    | mk z r1 =>
      rw [hq] at hp
      cases hp
      exact prepare_texts hB hq h0
  obtain ⟨r1, x, c1, c2, c3, env', c4⟩ := gtpRun_cases C cfg fmt fuel g _ g' game hrun
  have hr1 : r1 = .ok () := by
    cases r1 with
    | ok u => rfl
    | error e => exact absurd (c2 e rfl).1 (fun h => nomatch h)
  obtain ⟨b1, b2⟩ := run_texts hB (ownTexts tidyClass) fmt i7 henv c1
  obtain ⟨_, _, hok⟩ := C31_run (gtpBackend C cfg) fmt g.runner hg.prepared (by rw [i4]; exact hn.2) fuel r1 x game c1
  obtain ⟨b0, hh, e, g2, d1, _, _, d2, d3, rr, d4, d5, d6⟩ := hok hr1
  have hsz : g.runner.boardSize ≤ 25 := by rw [i4]; exact hn.2
  have hrr : Tidy rr.sgfResult := by
    cases hpo : g2.passedOut with
    | true =>
      obtain ⟨sc, env, _, _, d7⟩ := d5 hpo
      exact fromScore_tidy hfmt d7
    | false => exact unscored_tidy hsz d1.reachable d2 d3 hpo (d6 hpo).1
  have hfin := c3 hr1 rr d4
  have hgcT := cpuTimes_T tidyClass hC hf b1.gc cfg.cpuFloat
  unfold GtpGame.finish at hfin
  simp only at hfin
  cases hcp : x.env.gc.cpuTimes C cfg.cpuFloat with
  | mk v gc' =>
    rw [hcp] at hgcT hfin
    cases v with
    | error e => cases hfin
    | ok v =>
      obtain ⟨times, errors⟩ := v
      simp only at hfin
      injection hfin with _ hz2
      subst hz2
      have hcode : x.env.gc.code = f.code := b1.gc.code
      refine ⟨⟨hgcT, b1.scores⟩, rr, _, d4, hrr, rfl, ?_⟩
      rw [hcode]
      have c0 := counted_new f.code g.gameId rr
      have step : ∀ {r : GameResult} (c : Colour), Counted f.code g.gameId rr r → Counted f.code g.gameId rr
          (match times c with | some q => r.softUpdate1 c (.secs q) | none => r) := by
        intro r c hr
        split
        · exact (hr.update c _).1
        · exact hr
      have hc := step .w (step .b c0)
      exact ⟨hc.tidy hf.code hrr (d4 ▸ b2), hc.black, hc.white⟩

/-- The reported scores. -/
theorem tidy_scores {f : Fixed} {g : GtpGame σ (List Str)} (h : EnvT Tidy f g.runner.env) : ∀ k c s, g.playerScores = some k → k c = some s → Tidy s := by
  intro k c s hf hs
  unfold GtpGame.playerScores at hf
  cases hg : g.runner.gameScore with
  | none => rw [hg] at hf; cases hf
  | some sc =>
    rw [hg] at hf
    cases hf
    have hm : ∀ l : List (Colour × Str), l.lookup c = some s → (c, s) ∈ l := by
      intro l
      induction l with
      | nil => intro h; cases h
      | cons x l ih =>
        obtain ⟨a, b⟩ := x
        intro hs
        unfold List.lookup at hs
        split at hs
        · rename_i heq
          cases hs
          rw [beq_iff_eq] at heq
          subst heq
          exact List.mem_cons_self
        · exact List.mem_cons_of_mem _ (ih hs)
    exact h.scores _ (hm _ hs)

end

end Gomill.Gtp
