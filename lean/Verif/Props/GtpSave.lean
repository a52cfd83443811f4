import Verif.Lemmas.GtpSave
/-
C56: gomill-savesgf, and loadsgf of the file it writes.
-/
namespace Gomill.Sgf
open Py

variable {E : Encodings} {F : Floats}

theorem setInitialPosition_spec {P : Presenter} (hT : StandardTypes P) {n : Nat} (hn : P.size = n) (h2 : 2 ≤ n) (h25 : n ≤ 25) (m : PropMap) {b : Board}
    (hb : ReachableBoard n b) :
    (Sgf.setInitialPosition P m b).2 = .ok () ∧
    (∀ k, k ≠ ['A', 'B'] → k ≠ ['A', 'W'] → k ≠ ['A', 'E'] → lookup (Sgf.setInitialPosition P m b).1 k = lookup m k) ∧
    ∃ bp wp, getSetupStones (Sgf.setInitialPosition P m b).1 n = .ok (bp, wp, []) ∧
      (hasSetupStones (Sgf.setInitialPosition P m b).1 = true ↔ bp ++ wp ≠ []) ∧ (∀ p ∈ bp ++ wp, Go.OnBoard n p) ∧
      Go.setupPos (fun _ => none) bp wp [] = b.pos := by
  have hon : ∀ p ∈ stonesOf b .b ++ stonesOf b .w, Go.OnBoard n p := by
    intro p hp
    rw [List.mem_append, mem_stonesOf hb, mem_stonesOf hb] at hp
    by_contra hno
    rw [← hb.inv.side] at hno
    rw [pos_off hb.inv.wf hno] at hp
    simp at hp
  have hon' : ∀ p ∈ stonesOf b .b ++ stonesOf b .w ++ [], OnBoard P.size p := by
    intro p hp
    rw [hn]
    exact onBoard_int.2 (hon p (by simpa using hp))
  obtain ⟨s1, ⟨bp, wp, ep, s2, s3, s4, s5, s6, s7, s8⟩, s9⟩ := C51_set_setup P hT (by omega) (by omega) m (stonesOf b .b) (stonesOf b .w) [] hon'
  have hep : ep = [] := by
    cases ep with
    | nil => rfl
    | cons p _ => exact absurd ((s5 p).1 (by simp)) (by simp)
  subst hep
  have hnil : ∀ l l' : List Pt, SameSet l l' → (l = [] ↔ l' = []) := by
    intro l l' h
    constructor
    · rintro rfl
      cases l' with
      | nil => rfl
      | cons p _ => exact absurd ((h p).2 (by simp)) (by simp)
    · rintro rfl
      cases l with
      | nil => rfl
      | cons p _ => exact absurd ((h p).1 (by simp)) (by simp)
  refine ⟨s1, ?_, bp, wp, by rw [← hn]; exact s2, ?_, ?_, ?_⟩
  · intro k x1 x2 x3
    exact C51_frame P m (.setSetupStones (stonesOf b .b) (stonesOf b .w) []) k (by simp [NodeOp.Touches, x1, x2, x3])
  · unfold Sgf.setInitialPosition
    rw [s9]
    have h1 := hnil _ _ s3
    have h2 := hnil _ _ s4
    simp only [List.append_nil, ne_eq, List.append_eq_nil_iff, h1, h2]
  · intro p hp
    refine hon p ?_
    rw [List.mem_append] at hp ⊢
    rwa [← s3 p, ← s4 p]
  · funext q
    unfold Go.setupPos
    rw [if_neg (by simp)]
    have m1 := mem_stonesOf hb .b q
    have m2 := mem_stonesOf hb .w q
    have k1 := s3 q
    have k2 := s4 q
    by_cases hw : q ∈ wp
    · rw [if_pos hw, m2.1 (k2.1 hw)]
    · rw [if_neg hw]
      by_cases hbk : q ∈ bp
      · rw [if_pos hbk, m1.1 (k1.1 hbk)]
      · rw [if_neg hbk]
        cases hq : b.pos q with
        | none => rfl
        | some d =>
          cases d with
          | b => exact absurd (k1.2 (m1.2 hq)) hbk
          | w => exact absurd (k2.2 (m2.2 hq)) hw

end Gomill.Sgf

namespace Gomill.Gtp
open Py Sgf

/-- The properties that determine what loadsgf reads, and so can't be given to gomill-savesgf as extra arguments without
changing the game. (Extra values for AB, AW and AE are ignored.) -/
def reservedIdents : List Str := [['S', 'Z'], ['C', 'A'], ['K', 'M'], ['H', 'A'], ['B'], ['W'], ['P', 'L']]

/-- The conditions on the state for the file to be written: the board isn't too large, there is a move, comments are UTF-8, the
komi is a float. -/
structure Saveable (isFloat : Rat → Prop) (n : Nat) (s : GS) : Prop where
  inv : Inv n s
  size : n ≤ 25
  komi : isFloat s.komi
  moves : ∀ m ∈ s.history, ∀ p, m.move = some p → Go.OnBoard n p
  comments : ∀ m ∈ s.history, ∀ t, m.comments = some t → utf8Valid t = true
  nonempty : s.history ≠ []

/-- The Sgf_game that gomill-savesgf makes. -/
theorem save_record {V : SaveEnv} (hN : NamesOK V.encodings) (hE : V.encodings.normalise "UTF-8".toList = some "UTF-8".toList)
    (hEc : V.encodings.codec "UTF-8".toList = utf8Codec) (isFloat : Rat → Prop) (hFl : FloatsOK V.floats isFloat)
    {n : Nat} {s : GS} (hs : Saveable isFloat n s)
    {extras : List Str} {xs : List (Str × Str)} (hx : List.Forall₂ ExtraArg extras xs) (hres : ∀ x ∈ xs, x.1 ∉ reservedIdents) :
    ∃ M g root nodes, s.sgfText V extras = raised (M.serialise V.encodings g (some 79)) ∧ At V.encodings V.floats ⟨[], []⟩ M g (root :: nodes) ∧
      g.presenter = Presenter.new n utf8Codec V.floats ∧ g.encoding = "UTF-8".toList ∧ Declares V.encodings root "UTF-8".toList ∧
      (∃ b, M.getSetupAndMoves g = .ok (b, s.moves) ∧ ReachableBoard n b ∧ b.pos = s.base.pos) ∧
      (∃ v', nodeGet g.presenter root ['K', 'M'] = .ok v' ∧ Reads .real (.real (.fin s.komi)) v') ∧
      (s.handicap = none → lookup root ['H', 'A'] = none) ∧
      (∀ k, s.handicap = some k → ∃ v', nodeGet g.presenter root ['H', 'A'] = .ok v' ∧ Reads .number (.num k) v') ∧
      (∀ k v, LastExtra xs k v → k ≠ ['A', 'B'] → k ≠ ['A', 'W'] → k ≠ ['A', 'E'] → lookup root k = some [escapeText v]) ∧
      (∀ m l, s.history = m :: l → FirstToPlay g.presenter root m.colour) ∧
      List.Forall₂ (fun m node => Comment g.presenter m.comments node) s.history nodes := by
  have hF := hFl.chars
  have n25 := hs.size
  have n2 := hs.inv.two
  have hbs := hs.inv.size
  obtain ⟨L0, a1, h0⟩ := newGame_at hF hN (Session.start (E := V.encodings) (F := V.floats)) (size := (n : Int)) (by omega) (by omega) hE
  rw [hEc] at h0
  generalize hgdef : (⟨Presenter.new n utf8Codec V.floats, "UTF-8".toList, List.length (Lib.heap ⟨[], []⟩)⟩ : GameRec) = g at h0
  have hP : g.presenter = Presenter.new n utf8Codec V.floats := by rw [← hgdef]
  have hsz : g.presenter.size = n := by rw [hP]; rfl
  have hcod : g.presenter.codec = utf8Codec := by rw [hP]; rfl
  have hflo : g.presenter.floats = V.floats := by rw [hP]; rfl
  have hT : StandardTypes g.presenter := by rw [hP]; exact C50_standard _ _ _
  have h1 : 1 ≤ g.presenter.size := by rw [hsz]; omega
  have h2 : g.presenter.size ≤ 25 := by rw [hsz]; omega
  have hC : AsciiCompatible g.presenter.codec := by rw [hcod]; exact utf8_ok
  have hFl' : FloatsOK g.presenter.floats isFloat := by rw [hflo]; exact hFl
  have henc : ∀ s, Encodable g.presenter s := fun s => ⟨s, by rw [hcod]; rfl⟩
  have tKM : g.presenter.lookupType ['K', 'M'] = some .real := by rw [hP]; rfl
  have tAP : g.presenter.lookupType ['A', 'P'] = some .AP := by rw [hP]; rfl
  have tHA : g.presenter.lookupType ['H', 'A'] = some .number := by rw [hP]; rfl
  have tDT : g.presenter.lookupType ['D', 'T'] = some .simpletext := by rw [hP]; rfl
  have iKM : ValidIdent ['K', 'M'] := ⟨by decide, by decide, by decide⟩
  have iAP : ValidIdent ['A', 'P'] := ⟨by decide, by decide, by decide⟩
  have iHA : ValidIdent ['H', 'A'] := ⟨by decide, by decide, by decide⟩
  have iDT : ValidIdent ['D', 'T'] := ⟨by decide, by decide, by decide⟩
  -- the root node
  obtain ⟨L1, b1, k1⟩ := h0.setMaybe hF h1 h2 ['K', 'M'] iKM (by decide) tKM (some (.real (.fin s.komi))) (by rintro x ⟨⟩; trivial)
  obtain ⟨L2, b2, k2⟩ := k1.setMaybe hF h1 h2 ['A', 'P'] iAP (by decide) tAP (some (.pair ("gomill".toList, V.version)))
    (by rintro x ⟨⟩; exact ⟨henc _, henc _⟩)
  obtain ⟨L3, b3, k3⟩ := k2.setMaybe hF h1 h2 ['D', 'T'] iDT (by decide) tDT (some (.str V.date)) (by rintro x ⟨⟩; exact henc _)
  obtain ⟨L4, b4, k4⟩ := k3.setMaybe hF h1 h2 ['H', 'A'] iHA (by decide) tHA (s.handicap.map .num)
    (by intro x hx; cases hq : s.handicap with
        | none => rw [hq] at hx; cases hx
        | some res => rw [hq] at hx; cases hx; trivial)
  have hprops : setSaveProps V s g L0 = .ok L4 := by
    simp only [setSaveProps, b1, b2, b3, bind, Except.bind]
    exact b4
  generalize hm0 : newRootProps (n : Int) "UTF-8".toList = m0 at *
  generalize hm1 : Sgf.setMaybe g.presenter m0 ['K', 'M'] (some (.real (.fin s.komi))) = m1 at *
  generalize hm2 : Sgf.setMaybe g.presenter m1 ['A', 'P'] (some (.pair ("gomill".toList, V.version))) = m2 at *
  generalize hm3 : Sgf.setMaybe g.presenter m2 ['D', 'T'] (some (.str V.date)) = m3 at *
  generalize hm4 : Sgf.setMaybe g.presenter m3 ['H', 'A'] (s.handicap.map .num) = m4 at *
  have f1 : ∀ k, k ≠ ['K', 'M'] → lookup m1 k = lookup m0 k := fun k hk => by rw [← hm1]; exact lookup_setMaybe _ _ _ _ k hk
  have f2 : ∀ k, k ≠ ['A', 'P'] → lookup m2 k = lookup m1 k := fun k hk => by rw [← hm2]; exact lookup_setMaybe _ _ _ _ k hk
  have f3 : ∀ k, k ≠ ['D', 'T'] → lookup m3 k = lookup m2 k := fun k hk => by rw [← hm3]; exact lookup_setMaybe _ _ _ _ k hk
  have f4 : ∀ k, k ≠ ['H', 'A'] → lookup m4 k = lookup m3 k := fun k hk => by rw [← hm4]; exact lookup_setMaybe _ _ _ _ k hk
  have hold : ∀ k, k ≠ ['K', 'M'] → k ≠ ['A', 'P'] → k ≠ ['H', 'A'] → k ≠ ['D', 'T'] → lookup m4 k = lookup m0 k := by
    intro k e1 e2 e4 e5
    rw [f4 k e4, f3 k e5, f2 k e2, f1 k e1]
  have gKM : ∃ v', nodeGet g.presenter m4 ['K', 'M'] = .ok v' ∧ Reads .real (.real (.fin s.komi)) v' := by
    rw [nodeGet_congr ((f4 ['K', 'M'] (by decide)).trans ((f3 _ (by decide)).trans (f2 _ (by decide)))), ← hm1]
    exact get_setMaybe h1 h2 hC isFloat hFl' m0 _ iKM (by decide) tKM _ trivial hs.komi
  have gHA : ∀ k, s.handicap = some k → ∃ v', nodeGet g.presenter m4 ['H', 'A'] = .ok v' ∧ Reads .number (.num k) v' := by
    intro k hk
    rw [← hm4, hk]
    exact get_setMaybe h1 h2 hC isFloat hFl' m3 _ iHA (by decide) tHA _ trivial trivial
  have nHA : s.handicap = none → lookup m4 ['H', 'A'] = none := by
    intro h
    rw [← hm4, h]
    simp only [Option.map_none, Sgf.setMaybe]
    rw [f3 _ (by decide), f2 _ (by decide), f1 _ (by decide), ← hm0]
    rfl
  -- the extra arguments
  obtain ⟨L5, m5, c1, k5, c2, c3⟩ := setExtras_spec hF hx (fun x hx => by
    have := hres x hx
    simp only [reservedIdents, List.mem_cons, not_or] at this
    exact this.1) k4
  have hkeep : ∀ k ∈ reservedIdents, lookup m5 k = lookup m4 k := fun k hk => c2 k (fun x hx e => hres x hx (by rw [e]; exact hk))
  -- the position
  obtain ⟨d1, d2, bp, wp, d3, d4, d5, d6⟩ := setInitialPosition_spec hT hsz n2 n25 m5 hs.inv.base
  obtain ⟨L6, e1, k6⟩ := k5.root hF (.setSetupStones (stonesOf s.base .b) (stonesOf s.base .w) []) d1
  rw [show NodeOp.apply g.presenter m5 (.setSetupStones (stonesOf s.base .b) (stonesOf s.base .w) []) = Sgf.setInitialPosition g.presenter m5 s.base from rfl] at k6
  generalize hm6 : (Sgf.setInitialPosition g.presenter m5 s.base).1 = m6 at *
  -- the moves
  obtain ⟨L7, nodes, i1, k7, i2⟩ := moveComments hF hT hcod isFloat hFl' h1 h2 (s.history.map (fun m => (m.colour, m.move, m.comments))) k6
    (by
      intro x hx p hp
      obtain ⟨m, hm, rfl⟩ := List.mem_map.1 hx
      rw [hsz]
      exact onBoard_int.2 (hs.moves m hm p hp))
    (by
      intro x hx t ht
      obtain ⟨m, hm, rfl⟩ := List.mem_map.1 hx
      exact hs.comments m hm t ht)
  rw [List.singleton_append] at k7
  have i2' := i2
  rw [List.forall₂_map_left_iff] at i2
  obtain ⟨hm, hl, hh⟩ : ∃ m l, s.history = m :: l := by
    cases hq : s.history with
    | nil => exact absurd hq hs.nonempty
    | cons m l => exact ⟨m, l, rfl⟩
  obtain ⟨node, rest, rfl⟩ : ∃ node rest, nodes = node :: rest := by
    rw [hh] at i2
    cases i2 with
    | cons _ _ => exact ⟨_, _, rfl⟩
  have hnode : getMove node g.presenter.size = .ok (some (hm.colour, hm.move)) := by
    rw [hh] at i2
    cases i2 with
    | cons h _ => exact h.1
  have hk6 : ∀ k ∈ reservedIdents, lookup m6 k = lookup m4 k := by
    intro k hk
    rw [d2 k (by rintro rfl; exact absurd hk (by decide)) (by rintro rfl; exact absurd hk (by decide)) (by rintro rfl; exact absurd hk (by decide)), hkeep k hk]
  have hk0 : ∀ k ∈ reservedIdents, k ≠ ['K', 'M'] → k ≠ ['H', 'A'] → lookup m6 k = lookup m0 k := by
    intro k hk x1 x2
    rw [hk6 k hk, hold k x1 (by rintro rfl; exact absurd hk (by decide)) x2 (by rintro rfl; exact absurd hk (by decide))]
  have hg7 : L7.games[(Lib.games ⟨[], []⟩).length]? = some g := k7.get
  obtain ⟨M, root, j1, j2, j3, j4, j5, j6, j7, j8, j9⟩ := C54_first_player hF k7.session hg7 hT k7.seq hnode (by
    rw [hk0 _ (by decide) (by decide) (by decide), ← hm0]; rfl)
  have hAt : At V.encodings V.floats ⟨[], []⟩ M g (root :: node :: rest) := by
    refine ⟨j2, by rw [j3]; exact k7.games, j4, ?_⟩
    intro o' g' hg'
    simp at hg'
  have hlk : ∀ k ∈ reservedIdents, k ≠ ['P', 'L'] → lookup root k = lookup m4 k := fun k hk x => by rw [j6 k x, hk6 k hk]
  refine ⟨M, g, root, node :: rest, ?_, hAt, hP, by rw [← hgdef], ?_, ?_, ?_, ?_, ?_, ?_, ?_, ?_⟩
  · unfold GS.sgfText
    rw [hbs, a1]
    simp only [raised, bind, Except.bind]
    have : L0.games.getLast? = some g := by rw [h0.games]; simp
    rw [this]
    have hpos : L5.setInitialPosition g s.base = .ok L6 := e1
    simp only [hprops, c1, addSavePosition, hpos, i1, j1, bind, Except.bind]
  · unfold Declares
    rw [j6 _ (by decide), hk0 _ (by decide) (by decide) (by decide), ← hm0]
    have := hN.chars _ _ hE
    exact ⟨_, rfl, hE, this.1, fun c hc => ⟨(this.2 c hc).1, (this.2 c hc).2.2⟩⟩
  · have hc7 := collectMoves_nodes i2'
    rw [hsz] at hc7
    have hraw : getRawMove m6 = .ok none := by
      unfold getRawMove
      rw [find_eq_lookup, find_eq_lookup, hk0 _ (by decide) (by decide) (by decide), hk0 ['W'] (by decide) (by decide) (by decide), ← hm0]
      rfl
    obtain ⟨b', x1, x2, x3⟩ := setup_read n2 hraw hc7 d3 d4 d5 (by rw [d6]; exact C05_reachable_legal hs.inv.base)
    refine ⟨b', ?_, x2, by rw [x3, d6]⟩
    rw [j8]
    unfold Lib.getSetupAndMoves
    rw [k7.seq, hsz, x1, List.map_map]
    rfl
  · rw [nodeGet_congr (hlk _ (by decide) (by decide))]
    exact gKM
  · intro h
    rw [hlk _ (by decide) (by decide)]
    exact nHA h
  · intro k hk
    rw [nodeGet_congr (hlk _ (by decide) (by decide))]
    exact gHA k hk
  · intro k v hkv x1 x2 x3
    have hne : k ≠ ['P', 'L'] := by
      rintro rfl
      obtain ⟨l, r, e, _⟩ := hkv
      exact hres (['P', 'L'], v) (by rw [e]; simp) (by simp [reservedIdents])
    rw [j6 k hne, d2 k x1 x2 x3]
    exact c3 k v hkv
  · intro m l e
    rw [hh] at e
    cases e
    exact j5
  · exact i2.imp (fun _ _ h => h.2.2)

theorem nodeGet_item {P : Presenter} {m : PropMap} {ident : Str} {v : PVal} (h : nodeGet P m ident = .ok v) :
    ∃ raws, lookup m ident = some raws ∧ P.interpret ident raws = .ok v := by
  unfold nodeGet PropMap.item at h
  rw [find_eq_lookup] at h
  cases hl : lookup m ident with
  | none => rw [hl] at h; cases h
  | some raws => rw [hl] at h; exact ⟨raws, rfl, h⟩

/-- The number that is read for the komi: numbers close to 0 are stored as 0. -/
def storedKomi (q : Rat) : Rat := if -1/10000 < q ∧ q < 1/10000 then 0 else q

theorem storedKomi_range {q : Rat} (h1 : -625 ≤ q) (h2 : q ≤ 625) : -625 ≤ storedKomi q ∧ storedKomi q ≤ 625 := by
  unfold storedKomi
  split
  · constructor <;> norm_num
  · exact ⟨h1, h2⟩

theorem game_komi {P : Presenter} {F : Floats} (hPF : P.floats = F) (tKM : P.lookupType ['K', 'M'] = some .real) {readFloat : Str → Option Rat}
    (hrf : ∀ a q, F.read a = some (.fin q) → readFloat a = some q) {game : SgfGame} {v' : PVal}
    (h : nodeGet P game.root ['K', 'M'] = .ok v') {q : Rat} (hv : Reads .real (.real (.fin q)) v') :
    game.getKomi readFloat = .ok (storedKomi q) := by
  obtain ⟨raws, h1, h2⟩ := nodeGet_item h
  unfold SgfGame.getKomi
  rw [find_eq_lookup, h1]
  unfold Presenter.interpret at h2
  rw [effectiveType_of tKM] at h2
  simp only [Presenter.interpretAs, bind, Except.bind, pure, Except.pure] at h2 ⊢
  cases hs : singleValue raws with
  | error e => rw [hs] at h2; cases h2
  | ok x =>
    rw [hs] at h2
    simp only at h2 ⊢
    unfold interpretReal at h2
    rw [hPF] at h2
    cases hr : F.read x with
    | none => rw [hr] at h2; cases h2
    | some f =>
      rw [hr] at h2
      cases f with
      | inf _ => cases h2
      | nan => cases h2
      | fin q' =>
        cases h2
        simp only [Reads] at hv
        rw [hrf x q' hr, hv]
        rfl

theorem game_handicap {P : Presenter} (tHA : P.lookupType ['H', 'A'] = some .number) {game : SgfGame} {k : Int} (hk : k ≠ 0 ∧ k ≠ 1) {v' : PVal}
    (h : nodeGet P game.root ['H', 'A'] = .ok v') (hv : Reads .number (.num k) v') : game.getHandicap = .ok (some k) := by
  obtain ⟨raws, h1, h2⟩ := nodeGet_item h
  unfold SgfGame.getHandicap
  rw [find_eq_lookup, h1]
  unfold Presenter.interpret at h2
  rw [effectiveType_of tHA] at h2
  simp only [Presenter.interpretAs, bind, Except.bind, pure, Except.pure] at h2 ⊢
  cases hs : singleValue raws with
  | error e => rw [hs] at h2; cases h2
  | ok x =>
    rw [hs] at h2
    simp only at h2 ⊢
    cases hi : interpretNumber x with
    | error e => rw [hi] at h2; cases h2
    | ok i =>
      rw [hi] at h2
      cases h2
      simp only [Reads] at hv
      subst hv
      simp only
      rw [if_neg hk.1, if_neg hk.2]

/-- Loading a game whose moves are legal. -/
theorem loadGame_ok {env : Env} {s : GS} {mn : Option Int} {game : SgfGame} {n : Nat} (hn : game.size = n) (hacc : (n : Int) ∈ s.acceptable)
    {komi : Rat} (hk : game.getKomi env.readFloat = .ok komi) {handicap : Option Int} (hh : game.getHandicap = .ok handicap) {b : Board}
    {plays : List Go.Mv} (hb : ReachableBoard n b) (hp : Sgf.getSetupAndMoves n game.tree.mainSequence = .ok (b, plays)) (hl : Go.AllLegal n b.pos plays) :
    ∃ s', s.loadGame env mn game = (s', .value none) ∧ s'.boardSize = n ∧ s'.komi = clampKomi komi ∧ s'.handicap = handicap ∧ s'.base = b ∧
      s'.acceptable = s.acceptable ∧ s'.moves = match mn with
        | none => plays
        | some k => plays.take (k - 1).toNat := by
  have hmv := mvs_beforeMove mn plays
  have hl' : Go.AllLegal n b.pos (mvs (beforeMove mn (plays.map (fun p : Colour × Option Pt => ({ colour := p.1, move := p.2 } : HistMove))))) := by
    rw [hmv]
    cases mn with
    | none => exact hl
    | some k =>
      intro l c p r e
      simp only at e
      refine hl l c p (r ++ plays.drop (k - 1).toNat) ?_
      rw [← List.cons_append, ← List.append_assoc, ← e, List.take_append_drop]
  obtain ⟨⟨b1, ko, pl⟩, hr⟩ := replayK_ok hb _ hl'
  refine ⟨{ s with
      boardSize := n, komi := clampKomi komi, handicap := handicap, base := b, board := b1, koPoint := ko, koPlayer := pl,
      history := beforeMove mn (plays.map (fun p : Colour × Option Pt => ({ colour := p.1, move := p.2 } : HistMove))) }, ?_, rfl, rfl, rfl, rfl, rfl, hmv⟩
  unfold GS.loadGame
  rw [if_neg (by rw [hn]; exact not_not.2 hacc)]
  simp only [hk, hh, ignoreBadHandicap]
  rw [hn, hp]
  simp only
  rw [resetToMoves_ok (s := GS.setHistoryBase { s with boardSize := (n : Int) } b) hr]
  rfl

/-- C56: in every state with a move, gomill-savesgf (with any extra arguments for other properties) succeeds and writes the
file, and doesn't change the state. When an engine, in any state, that accepts the board size loads the file, it gets
the same board size, initial position, moves (or those before the move number given), handicap, komi (0 if it was
within 0.0001 of 0), and so the same board. -/
theorem C56_save_load {V : SaveEnv} (hN : NamesOK V.encodings) (hE : V.encodings.normalise "UTF-8".toList = some "UTF-8".toList)
    (hEc : V.encodings.codec "UTF-8".toList = utf8Codec) (isFloat : Rat → Prop) (hFl : FloatsOK V.floats isFloat) (hmax : isFloat 625)
    (hmin : isFloat (-625)) {env : Env} (hread : ∀ a f, env.readFloat a = some f → isFloat f) {acceptable : List Int} {s : GS}
    (hs : Reached env acceptable s) (h25 : s.boardSize ≤ 25) (hne : s.history ≠ [])
    (hcom : ∀ m ∈ s.history, ∀ t, m.comments = some t → utf8Valid t = true)
    {path : Str} {extras : List Str} {xs : List (Str × Str)} (hx : List.Forall₂ ExtraArg extras xs) (hres : ∀ x ∈ xs, x.1 ∉ reservedIdents)
    (hw : ∀ t, V.canWrite path t = true) :
    ∃ text, s.savesgf V (path :: extras) = ((s, .value none), some (path, text)) ∧
      ∀ {env' : Env} {acceptable' : List Int} {s' : GS} {path' : Str} {rest : List Str} {mn : Option Int}, Reached env' acceptable' s' →
        env'.file path' = some text → (∀ a q, V.floats.read a = some (.fin q) → env'.readFloat a = some q) →
        (∀ e n, V.encodings.normalise e = some n → env'.codec e = true) → s.boardSize ∈ s'.acceptable →
        (rest = [] ∧ mn = none ∨ ∃ a r k, rest = a :: r ∧ interpretInt a = some k ∧ mn = some k) →
        ∃ s2, s'.step env' .loadsgf (path' :: rest) = (s2, .value none) ∧ s2.boardSize = s.boardSize ∧
          s2.base.pos = s.base.pos ∧
          (s2.moves = match mn with
            | none => s.moves
            | some k => s.moves.take (k - 1).toNat) ∧
          s2.komi = storedKomi s.komi ∧ s2.handicap = s.handicap ∧
          (mn = none → s2.board.pos = s.board.pos ∧
            (¬ EndsWithPass s.moves → ∀ c fr, (s2.gameState c fr).koPoint = (s.gameState c fr).koPoint)) := by
  obtain ⟨n, hi⟩ := hs.inv
  have hkh := reached_komiHandicap hFl.zero hmax hmin hread hs
  obtain ⟨n', hn', _, _, hleg, hbp⟩ := C34_board_is_replay hs
  have : n' = n := by have := hi.size; omega
  subst this
  have hsave : Saveable isFloat n' s := by
    refine ⟨hi, by have := hi.size; omega, hkh.float, ?_, hcom, hne⟩
    intro m hm p hp
    obtain ⟨l, r, e⟩ := List.append_of_mem hm
    refine (hleg (l.map (fun m => (m.colour, m.move))) m.colour p (r.map (fun m => (m.colour, m.move))) ?_).1
    unfold GS.moves
    rw [e, List.map_append, List.map_cons, hp]
  obtain ⟨M, g, root, nodes, a1, a2, a3, a4, a5, ⟨b, a6, a7, a8⟩, ⟨vk, a9, a10⟩, a11, a12, _⟩ := save_record hN hE hEc isFloat hFl hsave hx hres
  have hroot := a2.root_props
  obtain ⟨text, b1, b2⟩ := C54_round_trip hFl.chars hN a2.session a2.get (by rw [a3]; rfl) (by rw [hroot, a4]; exact a5) (by rw [a4, hEc]; exact utf8_ok) (some 79)
  refine ⟨text, ?_, ?_⟩
  · unfold GS.savesgf
    simp only [a1, b1, raised, hw, if_true]
  intro env' acceptable' s' path' rest mn hs' hfile hrf hcodec hacc hmn
  obtain ⟨M2, g2, c1, c2, c3, c4, c5⟩ := b2 ⟨[], []⟩
  obtain ⟨game, d1, d2, d3, d4⟩ := fromString_game hcodec c1 c2
  have hP2 : g2.presenter = g.presenter := by rw [c3, a3, a4, hEc]; rfl
  have hgs : game.size = n' := by rw [d2, hP2, a3]; rfl
  have hsame : SameMap root game.root := by
    rw [a2.seq, mainSequence_cons] at c4
    cases c4 with
    | cons h _ => rw [d4]; exact h
  have hkomi : game.getKomi env'.readFloat = .ok (storedKomi s.komi) := by
    refine game_komi (P := g.presenter) (F := V.floats) (by rw [a3]; rfl) (by rw [a3]; rfl) hrf ?_ a10
    rw [← nodeGet_congr (hsame _)]
    exact a9
  have hhand : game.getHandicap = .ok s.handicap := by
    cases hq : s.handicap with
    | none =>
      unfold SgfGame.getHandicap
      rw [find_eq_lookup, ← hsame, a11 hq]
    | some k =>
      obtain ⟨v', e1, e2⟩ := a12 k hq
      have := hkh.handicap
      rw [hq] at this
      refine game_handicap (P := g.presenter) (by rw [a3]; rfl) ⟨by rintro rfl; exact this.1 rfl, by rintro rfl; exact this.2 rfl⟩ ?_ e2
      rw [← nodeGet_congr (hsame _)]
      exact e1
  have hplays : Sgf.getSetupAndMoves n' game.tree.mainSequence = .ok (b, s.moves) := by
    rw [d3, ← a6, ← c5]
    unfold Lib.getSetupAndMoves
    rw [hP2, a3]
    rfl
  obtain ⟨s2, e1, e2, e3, e4, e5, _, e6⟩ := loadGame_ok (env := env') (s := s') (mn := mn) hgs (by rw [← hi.size]; exact hacc) hkomi hhand a7 hplays (by rw [a8]; exact hleg)
  have hstep : s'.step env' .loadsgf (path' :: rest) = (s2, .value none) := by
    simp only [GS.step, GS.loadsgf]
    rcases hmn with ⟨rfl, rfl⟩ | ⟨a, r, k, rfl, hk, rfl⟩
    · simp only [hfile, d1]
      exact e1
    · simp only [hk, Option.map_some, hfile, d1]
      exact e1
  have hr2 : Reached env' acceptable' s2 := .step hs' hstep (fun h => absurd h failed_value)
  have hb2 : s2.base.pos = s.base.pos := by rw [e5, a8]
  obtain ⟨q1, q2⟩ := storedKomi_range hkh.lo hkh.hi
  refine ⟨s2, hstep, by rw [e2, hi.size], hb2, e6, by rw [e3, clampKomi_id q1 q2], e4, ?_⟩
  rintro rfl
  simp only at e6
  obtain ⟨n2, g1, _, _, _, g2⟩ := C34_board_is_replay hr2
  have : n2 = n' := by omega
  subst this
  refine ⟨by rw [g2, hbp, hb2, e6], ?_⟩
  intro hp c fr
  ext p
  rw [C34_ko hr2 (by rw [e6]; exact hp) n2 g1 c fr p, C34_ko hs hp n2 hn' c fr p, hb2, e6]

/-- What the file holds, for the SGF library: the extra arguments' values (the last one, if a property is given twice; AB, AW and AE
aside), who moves first, and the comments of the moves. -/
theorem C56_file {V : SaveEnv} (hN : NamesOK V.encodings) (hE : V.encodings.normalise "UTF-8".toList = some "UTF-8".toList)
    (hEc : V.encodings.codec "UTF-8".toList = utf8Codec) (isFloat : Rat → Prop) (hFl : FloatsOK V.floats isFloat)
    {n : Nat} {s : GS} (hs : Saveable isFloat n s)
    {path : Str} {extras : List Str} {xs : List (Str × Str)} (hx : List.Forall₂ ExtraArg extras xs) (hres : ∀ x ∈ xs, x.1 ∉ reservedIdents)
    (hw : ∀ t, V.canWrite path t = true) :
    ∃ text, s.savesgf V (path :: extras) = ((s, .value none), some (path, text)) ∧
      ∀ M : Lib, ∃ M' g root nodes, M.fromString V.encodings V.floats text none = .ok M' ∧ M'.games = M.games ++ [g] ∧
        g.presenter = Presenter.new n utf8Codec V.floats ∧ M'.mainSequence g = root :: nodes ∧
        (∃ b, M'.getSetupAndMoves g = .ok (b, s.moves) ∧ ReachableBoard n b ∧ b.pos = s.base.pos) ∧
        (∀ k v, LastExtra xs k v → k ≠ ['A', 'B'] → k ≠ ['A', 'W'] → k ≠ ['A', 'E'] →
          ∃ raw, lookup root k = some [raw] ∧ (∀ t, textValue raw = t ↔ Normalised false v t) ∧ ∀ t, simpletextValue raw = t ↔ Normalised true v t) ∧
        (∀ m l, s.history = m :: l → FirstToPlay g.presenter root m.colour) ∧
        List.Forall₂ (fun m node => Comment g.presenter m.comments node) s.history nodes := by
  obtain ⟨M0, g0, root0, nodes0, a1, a2, a3, a4, a5, a6, _, _, _, a7, a8, a9⟩ := save_record hN hE hEc isFloat hFl hs hx hres
  have hroot := a2.root_props
  obtain ⟨text, b1, b2⟩ := C54_round_trip hFl.chars hN a2.session a2.get (by rw [a3]; rfl) (by rw [hroot, a4]; exact a5) (by rw [a4, hEc]; exact utf8_ok) (some 79)
  refine ⟨text, ?_, ?_⟩
  · unfold GS.savesgf
    simp only [a1, b1, raised, hw, if_true]
  intro M
  obtain ⟨M', g, c1, c2, c3, c4, c5⟩ := b2 M
  have hP : g.presenter = g0.presenter := by rw [c3, a3, a4, hEc]; rfl
  rw [a2.seq] at c4
  generalize hms : M'.mainSequence g = ms at c4
  cases c4 with
  | @cons _ root _ nodes h h' =>
    refine ⟨M', g, root, nodes, c1, c2, by rw [hP, a3], hms, by rw [c5]; exact a6, ?_, ?_, ?_⟩
    · intro k v hk x1 x2 x3
      refine ⟨escapeText v, by rw [← h k]; exact a7 k v hk x1 x2 x3, C19_roundtrip v, C20_roundtrip v⟩
    · intro m l e
      have := a8 m l e
      unfold FirstToPlay at this ⊢
      rw [← h, ← h, nodeGet_congr (h _).symm, hP]
      exact this
    · rw [hP]
      clear hms a2 hroot
      generalize s.history = hist at a9
      induction h' generalizing hist with
      | nil => cases a9; exact .nil
      | cons e _ ih =>
        cases a9 with
        | cons x y =>
          refine .cons ?_ (ih _ y)
          unfold Comment at x ⊢
          split at x
          · rw [← e]; exact x
          · rw [nodeGet_congr (e _).symm]; exact x

theorem children_update {L L' : Lib} {g : GameRec} {i : Nat} {f : Presenter → PropMap → Upd} (h : L.update g i f = .ok L') (j : Nat) :
    L'.heap.children j = L.heap.children j := by
  unfold Lib.update at h
  split at h
  · cases h
    unfold Heap.children
    simp only [List.getElem?_modify]
    cases L.heap[j]? with
    | none => rfl
    | some r =>
      by_cases e : i = j <;> simp [e]
  · cases h

theorem children_setRootMaybe {L L' : Lib} {g : GameRec} {k : Str} {v : Option PVal} (h : L.setRootMaybe g k v = .ok L') (j : Nat) :
    L'.heap.children j = L.heap.children j := by
  cases v with
  | none => cases h; rfl
  | some v =>
    unfold Lib.setRootMaybe at h
    exact children_update h j

theorem raised_ok {α : Type} {x : Except Exc α} {a : α} (h : raised x = .ok a) : x = .ok a := by
  cases x with
  | error e => cases h
  | ok b => cases h; rfl

theorem except_bind_ok {ε α β : Type} {x : Except ε α} {f : α → Except ε β} {b : β} (h : x.bind f = .ok b) : ∃ a, x = .ok a ∧ f a = .ok b := by
  cases x with
  | error e => cases h
  | ok a => exact ⟨a, rfl, h⟩

theorem children_setExtras {g : GameRec} (j : Nat) : ∀ (extras : List Str) {L L' : Lib}, setExtras g extras L = .ok L' →
    L'.heap.children j = L.heap.children j
  | [], L, L', h => by cases h; rfl
  | a :: as, L, L', h => by
    unfold setExtras at h
    split at h
    · cases h
    · obtain ⟨L1, h1, h2⟩ := except_bind_ok h
      rw [children_setExtras j as h2, children_update (raised_ok h1)]

theorem setExtras_parse {g : GameRec} : ∀ (extras : List Str) {L L' : Lib}, setExtras g extras L = .ok L' → ∀ a ∈ extras, parseExtra a ≠ none
  | [], L, L', h => by simp
  | a :: as, L, L', h => by
    unfold setExtras at h
    split at h
    · cases h
    · rename_i hp
      obtain ⟨L1, h1, h2⟩ := except_bind_ok h
      intro b hb
      rcases List.mem_cons.1 hb with rfl | hb
      · rw [hp]; simp
      · exact setExtras_parse as h2 b hb

theorem sgfText_ok {V : SaveEnv} {s : GS} {extras : List Str} {t : Str} (h : s.sgfText V extras = .ok t) :
    s.history ≠ [] ∧ ∀ a ∈ extras, parseExtra a ≠ none := by
  unfold GS.sgfText at h
  obtain ⟨L0, h0, h⟩ := except_bind_ok h
  have h0 := raised_ok h0
  split at h
  · cases h
  rename_i g hg
  obtain ⟨L1, h1, h⟩ := except_bind_ok h
  have h1 := raised_ok h1
  obtain ⟨L2, h2, h⟩ := except_bind_ok h
  obtain ⟨L3, h3, h⟩ := except_bind_ok h
  have h3 := raised_ok h3
  refine ⟨?_, setExtras_parse _ h2⟩
  intro hne
  unfold addSavePosition at h3
  obtain ⟨L4, h4, h3⟩ := except_bind_ok h3
  obtain ⟨L5, h5, h3⟩ := except_bind_ok h3
  rw [hne] at h5
  cases h5
  have hc : L4.heap.children g.root = [] := by
    rw [children_update h4, children_setExtras g.root _ h2]
    unfold setSaveProps at h1
    obtain ⟨M1, k1, h1⟩ := except_bind_ok h1
    obtain ⟨M2, k2, h1⟩ := except_bind_ok h1
    obtain ⟨M3, k3, h1⟩ := except_bind_ok h1
    rw [children_setRootMaybe h1, children_setRootMaybe k3, children_setRootMaybe k2, children_setRootMaybe k1]
    unfold Lib.newGame at h0
    obtain ⟨⟨P, nm⟩, q1, h0⟩ := except_bind_ok h0
    obtain ⟨u, q2, h0⟩ := except_bind_ok h0
    cases h0
    simp at hg
    cases hg
    rfl
  unfold Lib.indicateFirstPlayer Lib.update at h3
  rw [hc] at h3
  cases h3

theorem parseExtra_shape {a : Str} (h : parseExtra a ≠ none) : ∃ letters value, a = letters ++ '=' :: value ∧ letters ≠ [] ∧ ∀ c ∈ letters, c.isAlpha = true := by
  unfold parseExtra at h
  rw [List.span_eq_takeWhile_dropWhile] at h
  have hsplit := List.takeWhile_append_dropWhile (p := fun c : Char => decide (c ≠ '=')) (l := a)
  have hhead : ∀ c r, a.dropWhile (fun c : Char => decide (c ≠ '=')) = c :: r → c = '=' := by
    intro c r e
    have := List.head_dropWhile_not (p := fun c : Char => decide (c ≠ '=')) (l := a) (by rw [e]; simp)
    simp only [e, List.head_cons] at this
    simpa using this
  split at h
  · exact absurd rfl h
  · rename_i l c v e
    obtain ⟨rfl, he⟩ := Prod.mk.inj e
    split at h
    · rename_i hl
      refine ⟨_, v, ?_, hl.1, ?_⟩
      · rw [he] at hsplit
        have := hhead _ _ he
        subst this
        exact hsplit.symm
      · intro d hd
        exact List.all_eq_true.1 hl.2 d hd
    · exact absurd rfl h

theorem raised_error {α : Type} {x : Except Exc α} {o : Outcome} (h : raised x = .error o) : Failed o := by
  cases x with
  | error e => cases h; rintro ⟨r, h⟩; cases h
  | ok b => cases h

theorem except_bind_error {ε α β : Type} {x : Except ε α} {f : α → Except ε β} {e : ε} (h : x.bind f = .error e) :
    x = .error e ∨ ∃ a, x = .ok a ∧ f a = .error e := by
  cases x with
  | error e => cases h; exact .inl rfl
  | ok a => exact .inr ⟨a, rfl, h⟩

theorem setExtras_error {g : GameRec} : ∀ (extras : List Str) {L : Lib} {o : Outcome}, setExtras g extras L = .error o → Failed o
  | [], L, o, h => by cases h
  | a :: as, L, o, h => by
    unfold setExtras at h
    split at h
    · cases h
      rintro ⟨r, h⟩
      cases h
    · rcases except_bind_error h with h | ⟨L1, _, h⟩
      · exact raised_error h
      · exact setExtras_error as h

theorem sgfText_error {V : SaveEnv} {s : GS} {extras : List Str} {o : Outcome} (h : s.sgfText V extras = .error o) : Failed o := by
  unfold GS.sgfText at h
  rcases except_bind_error h with h | ⟨L0, _, h⟩
  · exact raised_error h
  split at h
  · cases h
    rintro ⟨r, h⟩
    cases h
  rcases except_bind_error h with h | ⟨L1, _, h⟩
  · exact raised_error h
  rcases except_bind_error h with h | ⟨L2, _, h⟩
  · exact setExtras_error _ h
  rcases except_bind_error h with h | ⟨L3, _, h⟩
  · exact raised_error h
  · exact raised_error h

/-- The rest of gomill-savesgf: the state never changes; the reply is a success (with an empty value) exactly when the file has
been written, under the name given; there's no file if there are no moves, if there are no arguments or if an extra argument
isn't some letters followed by an equals sign. -/
theorem C56_outcomes (V : SaveEnv) (s : GS) (args : List Str) :
    (s.savesgf V args).1.1 = s ∧
    ((s.savesgf V args).1.2 = .value none ↔ (s.savesgf V args).2 ≠ none) ∧
    (¬ Failed (s.savesgf V args).1.2 → (s.savesgf V args).1.2 = .value none) ∧
    (∀ path text, (s.savesgf V args).2 = some (path, text) → args.head? = some path ∧ V.canWrite path text = true ∧ s.history ≠ [] ∧
      ∀ a ∈ args.tail, ∃ letters value, a = letters ++ '=' :: value ∧ letters ≠ [] ∧ ∀ c ∈ letters, c.isAlpha = true) := by
  unfold GS.savesgf
  cases args with
  | nil =>
    refine ⟨rfl, ⟨(fun h => nomatch h), (fun h => absurd rfl h)⟩, ?_, (fun p t h => nomatch h)⟩
    intro h
    exact absurd (fun ⟨r, h⟩ => by cases h) h
  | cons path extras =>
    simp only
    cases ht : s.sgfText V extras with
    | error o =>
      have hf := sgfText_error ht
      refine ⟨rfl, ⟨fun h => absurd ⟨none, h⟩ hf, fun h => absurd rfl h⟩, fun h => absurd hf h, by intro p t h; cases h⟩
    | ok contents =>
      simp only
      split
      · rename_i hw
        refine ⟨rfl, ⟨by simp, fun _ => rfl⟩, fun _ => rfl, ?_⟩
        intro p t h
        cases h
        obtain ⟨h1, h2⟩ := sgfText_ok ht
        exact ⟨rfl, hw, h1, fun a ha => parseExtra_shape (h2 a ha)⟩
      · refine ⟨rfl, ⟨(fun h => nomatch h), (fun h => absurd rfl h)⟩, ?_, (fun p t h => nomatch h)⟩
        intro h
        exact absurd (fun ⟨r, h⟩ => by cases h) h

/-- The date and version are fixed, and one file can be written. -/
def testSave : SaveEnv := ⟨exampleEncodings, exampleFloats, "1".toList, "2020-01-01".toList, fun p _ => p = "x".toList⟩

/-- Non-vacuity: a reachable state with a capture and a ko, saved with two extra arguments (the AB one is ignored). -/
theorem C56_witness : NamesOK testSave.encodings ∧ FloatsOK testSave.floats exampleIsFloat ∧ exampleIsFloat 625 ∧ exampleIsFloat (-625) ∧
    (∀ t, testSave.canWrite "x".toList t = true) ∧
    List.Forall₂ ExtraArg ["gn=a\\_b\\\\]".toList, "AB=aa".toList] [("GN".toList, "a b\\]".toList), ("AB".toList, "aa".toList)] ∧
    ∃ s, Reached testEnv [3, 9] s ∧ s.boardSize = 3 ∧ s.moves.length = 5 ∧
      (s.savesgf testSave ["x".toList, "gn=a\\_b\\\\]".toList, "AB=aa".toList]).2 = some ("x".toList,
        "(;FF[4]AP[gomill:1]CA[UTF-8]DT[2020-01-01]GM[1]GN[a b\\\\\\]]KM[0]SZ[3];B[bc];\nW[ac];W[aa];W[bb];B[ab])\n".toList) ∧
      (testGS.savesgf testSave ["x".toList]).2 = none := by
  refine ⟨exampleNames, exampleFloats_ok, ?_, ?_, fun _ => by simp [testSave], ?_, ?_⟩
  · exact .inl (by decide +kernel)
  · exact .inl (by decide +kernel)
  · refine .cons ⟨"gn".toList, by decide +kernel, by decide, by decide, by decide +kernel, by decide +kernel, ?_⟩
      (.cons ⟨"AB".toList, by decide +kernel, by decide, by decide, by decide +kernel, by decide +kernel, ?_⟩ .nil)
    · rintro ⟨l, r, h⟩
      simp only at h
      have : '_' ∈ "a b\\]".toList := by rw [h]; simp
      exact absurd this (by decide)
    · rintro ⟨l, r, h⟩
      simp only at h
      have : '_' ∈ "aa".toList := by rw [h]; simp
      exact absurd this (by decide)
  · have h : (runAll testEnv testGS koCmds).map (fun s => (s.boardSize, s.moves.length,
        (s.savesgf testSave ["x".toList, "gn=a\\_b\\\\]".toList, "AB=aa".toList]).2)) = some (3, 5, some ("x".toList,
        "(;FF[4]AP[gomill:1]CA[UTF-8]DT[2020-01-01]GM[1]GN[a b\\\\\\]]KM[0]SZ[3];B[bc];\nW[ac];W[aa];W[bb];B[ab])\n".toList)) := by decide +kernel
    rw [Option.map_eq_some_iff] at h
    obtain ⟨s, hs, h⟩ := h
    simp only [Prod.mk.injEq] at h
    exact ⟨s, runAll_reached _ testGS_reached hs, h.1, h.2.1, h.2.2, by decide +kernel⟩

/-! ### writing the extra arguments -/

/-- The value which gomill-savesgf gets: a space for the underscore of each `\_`. -/
def decodedArg : Str → Str
  | '\\' :: '_' :: r => '\\' :: ' ' :: decodedArg r
  | c :: r => c :: decodedArg r
  | [] => []

/-- The value after the first of the replacements. -/
def halfDecoded : Str → Str
  | '\\' :: '_' :: r => '\\' :: ' ' :: halfDecoded r
  | c :: r => (if c = '\\' then ['\\', '\\'] else [c]) ++ halfDecoded r
  | [] => []

theorem half_us (r : Str) : halfDecoded ('\\' :: '_' :: r) = '\\' :: ' ' :: halfDecoded r := by rw [halfDecoded]

theorem half_bs {r : Str} (h : ∀ r', r ≠ '_' :: r') : halfDecoded ('\\' :: r) = '\\' :: '\\' :: halfDecoded r := by
  rw [halfDecoded, if_pos rfl]
  · rfl
  · intro r' _ hr; exact absurd hr (h r')

theorem half_ne {c : Char} (h : c ≠ '\\') (r : Str) : halfDecoded (c :: r) = c :: halfDecoded r := by
  rw [halfDecoded, if_neg h]
  · rfl
  · intro r' hr; exact absurd hr h

theorem dec_us (r : Str) : decodedArg ('\\' :: '_' :: r) = '\\' :: ' ' :: decodedArg r := by rw [decodedArg]

theorem dec_bs {r : Str} (h : ∀ r', r ≠ '_' :: r') : decodedArg ('\\' :: r) = '\\' :: decodedArg r := by
  rw [decodedArg]
  intro r' _ hr; exact absurd hr (h r')

theorem dec_ne {c : Char} (h : c ≠ '\\') (r : Str) : decodedArg (c :: r) = c :: decodedArg r := by
  rw [decodedArg]
  intro r' hr; exact absurd hr h

theorem us_or (r : Str) : (∃ r', r = '_' :: r') ∨ ∀ r', r ≠ '_' :: r' := by
  by_cases h : ∃ r', r = '_' :: r'
  · exact .inl h
  · exact .inr (fun r' hr => h ⟨r', hr⟩)

theorem enc_cons (c : Char) (v : Str) : encodeArg (c :: v) = (if c = '\\' then ['\\', '\\'] else if c = ' ' then ['\\', '_'] else [c]) ++ encodeArg v := rfl

theorem first_half : ∀ (n : Nat) (v : Str), v.length ≤ n → replacePair '\\' '_' ' ' (encodeArg v) = halfDecoded v
  | _, [], _ => rfl
  | 0, _ :: _, h => by simp at h
  | n + 1, c :: v, h => by
    have hv : v.length ≤ n := by simpa using h
    have ih := first_half n v hv
    rw [enc_cons]
    by_cases h1 : c = '\\'
    · subst h1
      rw [if_pos rfl]
      rcases us_or v with ⟨r, rfl⟩ | hr
      · rw [half_us, enc_cons, if_neg (by decide), if_neg (by decide)]
        simp only [List.cons_append, List.nil_append]
        rw [replacePair, if_neg (by decide), replacePair, if_pos ⟨rfl, rfl⟩, first_half n r (by simp at hv; omega)]
      · rw [half_bs hr, ← ih]
        simp only [List.cons_append, List.nil_append]
        rw [replacePair, if_neg (by decide)]
        cases v with
        | nil => rfl
        | cons d v =>
          have hd : d ≠ '_' := fun e => hr v (by rw [e])
          rw [enc_cons]
          split
          · simp only [List.cons_append, List.nil_append]
            rw [replacePair, if_neg (by decide)]
          · split
            · simp only [List.cons_append, List.nil_append]
              rw [replacePair, if_neg (by decide)]
            · simp only [List.cons_append, List.nil_append]
              rw [replacePair, if_neg (by tauto)]
    · rw [if_neg h1, half_ne h1, ← ih]
      by_cases h2 : c = ' '
      · subst h2
        rw [if_pos rfl]
        simp only [List.cons_append, List.nil_append]
        rw [replacePair, if_pos ⟨rfl, rfl⟩]
      · rw [if_neg h2]
        simp only [List.cons_append, List.nil_append]
        rw [replacePair_cons_ne h1]

theorem second_half : ∀ (n : Nat) (v : Str), v.length ≤ n → replacePair '\\' '\\' '\\' (halfDecoded v) = decodedArg v
  | _, [], _ => by rw [halfDecoded, decodedArg]; rfl
  | 0, _ :: _, h => by simp at h
  | n + 1, c :: v, h => by
    have hv : v.length ≤ n := by simpa using h
    have ih := second_half n v hv
    by_cases h1 : c = '\\'
    · subst h1
      rcases us_or v with ⟨r, rfl⟩ | hr
      · rw [half_us, dec_us, replacePair, if_neg (by decide), replacePair_cons_ne (by decide), second_half n r (by simp at hv; omega)]
      · rw [half_bs hr, dec_bs hr, replacePair, if_pos ⟨rfl, rfl⟩, ih]
    · rw [half_ne h1, dec_ne h1, replacePair_cons_ne h1, ih]

theorem decoded_iff : ∀ (n : Nat) (v : Str), v.length ≤ n → (decodedArg v = v ↔ ¬ BackslashUnderscore v)
  | _, [], _ => by
    refine iff_of_true (by rw [decodedArg]) ?_
    rintro ⟨l, r, e⟩
    have := congrArg List.length e
    simp at this
  | 0, _ :: _, h => by simp at h
  | n + 1, c :: v, h => by
    have hv : v.length ≤ n := by simpa using h
    have ih := decoded_iff n v hv
    by_cases h1 : c = '\\' ∧ ∃ r, v = '_' :: r
    · obtain ⟨rfl, r, rfl⟩ := h1
      rw [dec_us]
      refine iff_of_false ?_ (fun h => h ⟨[], r, rfl⟩)
      intro h
      injection h with _ h
      injection h with h _
      exact absurd h (by decide)
    · have hd : decodedArg (c :: v) = c :: decodedArg v := by
        by_cases h2 : c = '\\'
        · subst h2
          exact dec_bs (fun r hr => h1 ⟨rfl, r, hr⟩)
        · exact dec_ne h2 v
      rw [hd]
      constructor
      · intro he
        injection he with _ he
        rintro ⟨l, r, e⟩
        cases l with
        | nil =>
          injection e with e1 e2
          exact h1 ⟨e1, r, e2⟩
        | cons d l =>
          injection e with e1 e2
          exact ih.1 he ⟨l, r, e2⟩
      · intro hb
        rw [ih.2 (fun ⟨l, r, e⟩ => hb ⟨c :: l, r, by rw [e]; rfl⟩)]

/-- C56: an extra argument written with its backslashes doubled and its spaces as `\_` gives the property that value; but for a value with a backslash followed by an underscore,
which is always changed (the underscore becomes a space). -/
theorem C56_escape {letters : Str} (hne : letters ≠ []) (hl : ∀ c ∈ letters, c.isAlpha = true) (value : Str) :
    parseExtra (letters ++ ['='] ++ encodeArg value) = some (letters.map Char.toUpper, decodedArg value) ∧
    (decodedArg value = value ↔ ¬ BackslashUnderscore value) := by
  refine ⟨?_, decoded_iff _ value le_rfl⟩
  have hn : ∀ c ∈ letters, c ≠ '=' := by
    rintro c hc rfl
    exact absurd (hl _ hc) (by decide)
  unfold parseExtra
  rw [List.append_assoc, List.singleton_append, span_eq hn]
  simp only
  rw [if_pos ⟨hne, by rw [List.all_eq_true]; exact hl⟩, first_half _ value le_rfl, second_half _ value le_rfl]

theorem C56_escape_witness : parseExtra "pb=a\\\\\\_b\\\\_".toList = some ("PB".toList, "a\\ b\\ ".toList) ∧
    encodeArg "a\\ b\\_".toList = "a\\\\\\_b\\\\_".toList ∧ decodedArg "a\\ b\\_".toList = "a\\ b\\ ".toList := by decide +kernel

end Gomill.Gtp
