import Verif.Lemmas.SgfRunner
import Verif.Props.GameRunner
/-
C55: the SGF record that Game_runner.make_sgf makes.
-/
namespace Gomill.Sgf

open Py

variable {E : Encodings} {F : Floats} {σ : Type}

/-- The node's comment is `s` (with the whitespace normalised as for all SGF text), or it has none. -/
def Comment (P : Presenter) (s : Option Str) (m : PropMap) : Prop :=
  match s with
  | none => lookup m ['C'] = none
  | some s => ∃ t, nodeGet P m ['C'] = .ok (.str t) ∧ Normalised false s t

/-- The node's comment is `s`, followed by the message `d` after a blank line. -/
def CommentWith (P : Presenter) (s d : Option Str) (m : PropMap) : Prop :=
  match d with
  | none => Comment P s m
  | some d => ∃ t, nodeGet P m ['C'] = .ok (.str t) ∧
    match s with
    | none => Normalised false d t
    | some s => ∃ s', Normalised false s s' ∧ Normalised false (s' ++ "\n\n".toList ++ d) t

/-- The conditions on a Game_runner for its game to be recorded: the board isn't too large, the moves and handicap stones are on
the board, the texts are UTF-8, the komi is a float. -/
structure Recordable (isFloat : Rat → Prop) (r : Runner σ) : Prop where
  size : 2 ≤ r.boardSize ∧ r.boardSize ≤ 25
  komi : isFloat r.komi
  moves : ∀ x ∈ r.moves, ∀ p, x.2.1 = some p → Go.OnBoard r.boardSize p
  comments : ∀ x ∈ r.moves, ∀ s, x.2.2 = some s → utf8Valid s = true
  final : ∀ c s, r.finalDiagnostics = some (c, s) → utf8Valid s = true
  result : ∀ res, r.result = some res → utf8Valid res.sgfResult = true
  stones : ∀ p ∈ r.handicapStones.getD [], Go.OnBoard r.boardSize p

theorem nodeGet_congr {P : Presenter} {m m' : PropMap} {k : Str} (h : lookup m k = lookup m' k) : nodeGet P m k = nodeGet P m' k := by
  unfold nodeGet PropMap.item
  rw [find_eq_lookup, find_eq_lookup, h]

theorem nodeGet_absent {P : Presenter} {m : PropMap} {k : Str} (h : lookup m k = none) : nodeGet P m k = .error .keyError := by
  unfold nodeGet PropMap.item
  rw [find_eq_lookup, h]
  rfl

/-- Set a property, if there is a value for it. -/
def setMaybe (P : Presenter) (m : PropMap) (ident : Str) (v : Option PVal) : PropMap :=
  match v with
  | none => m
  | some v => (nodeSet P m ident v).1

theorem lookup_setMaybe (P : Presenter) (m : PropMap) (ident : Str) (v : Option PVal) (k : Str) (hk : k ≠ ident) :
    lookup (setMaybe P m ident v) k = lookup m k := by
  cases v with
  | none => rfl
  | some v =>
    have := C51_frame P m (.set ident v) k (by simpa [NodeOp.Touches] using hk)
    simp only [NodeOp.apply] at this
    exact this

theorem At.setMaybe (hF : ∀ q, ∀ c ∈ F.repr q, c ≠ ']' ∧ c ≠ '\\') {L0 L : Lib} {g : GameRec} {m : PropMap} {seq : List PropMap}
    (h : At E F L0 L g (m :: seq)) (h1 : 1 ≤ g.presenter.size) (h2 : g.presenter.size ≤ 25) (ident : Str) (hid : ValidIdent ident)
    (hsz : ident ≠ ['S', 'Z']) {t : PType} (ht : g.presenter.lookupType ident = some t) (v : Option PVal) (hv : ∀ x, v = some x → Storable g.presenter t x) :
    ∃ L', L.setRootMaybe g ident v = .ok L' ∧ At E F L0 L' g (setMaybe g.presenter m ident v :: seq) := by
  cases v with
  | none => exact ⟨L, rfl, h⟩
  | some v =>
    have hok : (nodeSet g.presenter m ident v).2 = .ok () := by
      rw [(C50_set_iff g.presenter h1 h2 m ident v).1]
      exact ⟨hid, t, effectiveType_of ht, hv v rfl, fun e => absurd e hsz⟩
    obtain ⟨L', e1, e2⟩ := h.root hF (.set ident v) hok
    exact ⟨L', e1, e2⟩

/-- What is read back after setting a property. -/
theorem get_setMaybe {P : Presenter} (h1 : 1 ≤ P.size) (h2 : P.size ≤ 25) (hC : AsciiCompatible P.codec) (isFloat : Rat → Prop)
    (hF : FloatsOK P.floats isFloat) (m : PropMap) (ident : Str) (hid : ValidIdent ident)
    (hsz : ident ≠ ['S', 'Z']) {t : PType} (ht : P.lookupType ident = some t) (v : PVal) (hv : Storable P t v) (hw : WellFormed isFloat v) :
    ∃ v', nodeGet P (setMaybe P m ident (some v)) ident = .ok v' ∧ Reads t v v' := by
  have hok : (nodeSet P m ident v).2 = .ok () := by
    rw [(C50_set_iff P h1 h2 m ident v).1]
    exact ⟨hid, t, effectiveType_of ht, hv, fun e => absurd e hsz⟩
  exact (C50_set_get P h1 h2 hC isFloat hF m ident v hw t (effectiveType_of ht) hok).1

theorem comment_valid {P : Presenter} (hT : StandardTypes P) (hu : P.codec = utf8Codec) {m : PropMap} {t : Str}
    (h : nodeGet P m ['C'] = .ok (.str t)) : utf8Valid t = true := by
  unfold nodeGet Presenter.interpret at h
  cases hi : m.item ['C'] with
  | error e => rw [hi] at h; cases h
  | ok raws =>
    rw [hi] at h
    simp only [bind, Except.bind, effectiveType_of hT.c, Presenter.interpretAs] at h
    cases hs : singleValue raws with
    | error e => rw [hs] at h; cases h
    | ok s =>
      rw [hs] at h
      simp only [interpretText, hu, utf8Codec, orValueError] at h
      by_cases hv : utf8Valid (textValue s) = true
      · simp only [hv, if_true, pure, Except.pure] at h
        cases h
        exact hv
      · simp [hv] at h

/-- Adding a comment, if there is one, to the last node. -/
theorem moveComment (hF : ∀ q, ∀ c ∈ F.repr q, c ≠ ']' ∧ c ≠ '\\') {L0 L : Lib} {g : GameRec} {seq : List PropMap} (hT : StandardTypes g.presenter)
    (hu : g.presenter.codec = utf8Codec) (isFloat : Rat → Prop) (hFl : FloatsOK g.presenter.floats isFloat)
    (h1 : 1 ≤ g.presenter.size) (h2 : g.presenter.size ≤ 25)
    (h : At E F L0 L g seq) (x : Colour × Option Pt × Option Str) (hx : ∀ p, x.2.1 = some p → OnBoard g.presenter.size p)
    (hc : ∀ s, x.2.2 = some s → utf8Valid s = true) :
    ∃ L' m, L.addMoveComment g x = .ok L' ∧ At E F L0 L' g (seq ++ [m]) ∧ getMove m g.presenter.size = .ok (some (x.1, x.2.1)) ∧
      hasSetupStones m = false ∧ Comment g.presenter x.2.2 m := by
  obtain ⟨c, mv, cm⟩ := x
  simp only at hx hc ⊢
  obtain ⟨s1, s2, _⟩ := (C51_set_move g.presenter hT h1 h2 [] c mv).1 hx
  obtain ⟨L1, e1, e2, e3⟩ := h.addMove hF c mv s1
  have hnc : lookup (setMove g.presenter [] c mv).1 ['C'] = none := by
    have := C51_frame g.presenter [] (.setMove c mv) ['C'] (by simp [NodeOp.Touches])
    simp only [NodeOp.apply] at this
    rw [this]; rfl
  cases cm with
  | none => exact ⟨L1, _, by simp [Lib.addMoveComment, e1, bind, Except.bind, pure, Except.pure], e2, s2, setMove_noSetup _ _ _, hnc⟩
  | some s =>
    have hC : AsciiCompatible g.presenter.codec := by rw [hu]; exact utf8_ok
    have hid : ValidIdent ['C'] := ⟨by decide, by decide, by decide⟩
    have hst : Storable g.presenter .text (.str s) := ⟨s, by rw [hu]; rfl⟩
    have hok : (nodeSet g.presenter (setMove g.presenter [] c mv).1 ['C'] (.str s)).2 = .ok () := by
      rw [(C50_set_iff g.presenter h1 h2 _ _ _).1]
      exact ⟨hid, .text, effectiveType_of hT.c, hst, fun e => by simp at e⟩
    obtain ⟨L2, f1, f2⟩ := e2.last hF (.set ['C'] (.str s)) hok
    rw [e3] at f1
    have hfr : ∀ k, k ≠ ['C'] → lookup (nodeSet g.presenter (setMove g.presenter [] c mv).1 ['C'] (.str s)).1 k = lookup (setMove g.presenter [] c mv).1 k := by
      intro k hk
      have := C51_frame g.presenter (setMove g.presenter [] c mv).1 (.set ['C'] (.str s)) k (by simpa [NodeOp.Touches] using hk)
      simpa only [NodeOp.apply] using this
    have hsm : SameMoves (setMove g.presenter [] c mv).1 (nodeSet g.presenter (setMove g.presenter [] c mv).1 ['C'] (.str s)).1 := by
      intro k hk
      rw [find_eq_lookup, find_eq_lookup, hfr k]
      rintro rfl
      exact absurd hk (by decide)
    refine ⟨L2, _, ?_, f2, ?_, ?_, ?_⟩
    · simp only [Lib.addMoveComment, e1, bind, Except.bind]
      exact f1
    · rw [← s2]
      unfold getMove
      simp only [NodeOp.apply]
      rw [← rawMove_congr hsm]
    · simp only [NodeOp.apply]
      rw [← hasSetup_congr hsm]
      exact setMove_noSetup _ _ _
    · obtain ⟨⟨v', g1, g2⟩, _⟩ := C50_set_get g.presenter h1 h2 hC isFloat hFl _ ['C'] (.str s) (hc s rfl) .text (effectiveType_of hT.c) hok
      cases v' <;> simp only [Reads] at g2
      exact ⟨_, g1, g2⟩

theorem moveComments (hF : ∀ q, ∀ c ∈ F.repr q, c ≠ ']' ∧ c ≠ '\\') {L0 : Lib} {g : GameRec} (hT : StandardTypes g.presenter)
    (hu : g.presenter.codec = utf8Codec) (isFloat : Rat → Prop) (hFl : FloatsOK g.presenter.floats isFloat)
    (h1 : 1 ≤ g.presenter.size) (h2 : g.presenter.size ≤ 25) :
    ∀ (ms : List (Colour × Option Pt × Option Str)) {L : Lib} {seq : List PropMap}, At E F L0 L g seq →
    (∀ x ∈ ms, ∀ p, x.2.1 = some p → OnBoard g.presenter.size p) → (∀ x ∈ ms, ∀ s, x.2.2 = some s → utf8Valid s = true) →
    ∃ L' nodes, Lib.addMoves g ms L = .ok L' ∧ At E F L0 L' g (seq ++ nodes) ∧
      List.Forall₂ (fun x m => getMove m g.presenter.size = .ok (some (x.1, x.2.1)) ∧ hasSetupStones m = false ∧ Comment g.presenter x.2.2 m) ms nodes
  | [], L, seq, h, _, _ => ⟨L, [], rfl, by simpa using h, .nil⟩
  | x :: ms, L, seq, h, hx, hc => by
    obtain ⟨L1, m, a1, a2, a3⟩ := moveComment hF hT hu isFloat hFl h1 h2 h x (hx x (by simp)) (hc x (by simp))
    obtain ⟨L2, nodes, b1, b2, b3⟩ := moveComments hF hT hu isFloat hFl h1 h2 ms a2 (fun y hy => hx y (by simp [hy])) (fun y hy => hc y (by simp [hy]))
    refine ⟨L2, m :: nodes, ?_, by simpa using b2, .cons a3 b3⟩
    simp only [Lib.addMoves, a1, bind, Except.bind]
    exact b1

theorem collectMoves_nodes {P : Presenter} {size : Int} {ms : List (Colour × Option Pt × Option Str)} {nodes : List PropMap}
    (h : List.Forall₂ (fun x m => getMove m size = .ok (some (x.1, x.2.1)) ∧ hasSetupStones m = false ∧ Comment P x.2.2 m) ms nodes) :
    collectMoves size nodes = .ok (ms.map (fun x => (x.1, x.2.1))) := by
  induction h with
  | nil => rfl
  | @cons x m ms nodes h1 _ ih =>
    have := collectMoves_append size [m] nodes
    rw [List.singleton_append] at this
    rw [this, collectMoves_single h1.2.1 h1.1, ih]
    rfl

/-- The final message, added to the last node. -/
theorem finalComment (hF : ∀ q, ∀ c ∈ F.repr q, c ≠ ']' ∧ c ≠ '\\') {L0 L : Lib} {g : GameRec} {seq : List PropMap} {m : PropMap} (hT : StandardTypes g.presenter)
    (hu : g.presenter.codec = utf8Codec) (isFloat : Rat → Prop) (hFl : FloatsOK g.presenter.floats isFloat)
    (h1 : 1 ≤ g.presenter.size) (h2 : g.presenter.size ≤ 25) (h : At E F L0 L g (seq ++ [m])) {c : Option Str} (hc : Comment g.presenter c m)
    (d : Option (Colour × Str)) (hd : ∀ x, d = some x → utf8Valid (finalMessage x) = true) :
    ∃ L' m', L.addFinalMessage g d = .ok L' ∧ At E F L0 L' g (seq ++ [m']) ∧ CommentWith g.presenter c (d.map finalMessage) m' ∧
      ∀ k, k ≠ ['C'] → lookup m' k = lookup m k := by
  cases d with
  | none => exact ⟨L, m, rfl, h, hc, fun _ _ => rfl⟩
  | some d =>
    have hC : AsciiCompatible g.presenter.codec := by rw [hu]; exact utf8_ok
    have henc : ∀ s, Encodable g.presenter s := fun s => ⟨s, by rw [hu]; rfl⟩
    have hcc := C51_comment g.presenter hT h1 h2 hC isFloat hFl m (finalMessage d) (hd d rfl)
    have hboth : (addCommentText g.presenter m (finalMessage d)).2 = .ok () ∧
        CommentWith g.presenter c (some (finalMessage d)) (addCommentText g.presenter m (finalMessage d)).1 := by
      cases c with
      | none =>
        obtain ⟨a1, t, a2, a3⟩ := hcc.1 hc (henc _)
        exact ⟨a1, t, a2, a3⟩
      | some s =>
        obtain ⟨s', b1, b2⟩ := hc
        obtain ⟨a1, t, a2, a3⟩ := hcc.2 s' b1 (comment_valid hT hu b1) (henc _)
        exact ⟨a1, t, a2, s', b2, a3⟩
    obtain ⟨L', e1, e2⟩ := h.last hF (.addCommentText (finalMessage d)) hboth.1
    refine ⟨L', _, e1, e2, hboth.2, ?_⟩
    intro k hk
    exact C51_frame g.presenter m (.addCommentText (finalMessage d)) k (by simpa [NodeOp.Touches] using hk)

theorem finalMessage_valid {c : Colour} {s : Str} (h : utf8Valid s = true) : utf8Valid (finalMessage (c, s)) = true := by
  have key : ∀ (a b : Str), utf8Valid a = true → utf8Valid b = true → utf8Valid (a ++ b) = true :=
    fun a b ha hb => utf8Valid_concat _ a b (Nat.le_refl _) ha hb
  unfold finalMessage
  simp only
  refine key _ _ (key _ _ (key _ _ (key _ _ (by decide +kernel) (by cases c <;> decide +kernel)) (by decide +kernel)) h) (by decide +kernel)

/-- The comments of the nodes of a recorded game: none in the root, and then those of the moves. -/
def commentsOf (r : Runner σ) : List (Option Str) := none :: r.moves.map (fun x => x.2.2)

theorem forall₂_init_last {α β : Type} {R : α → β → Prop} {l : List α} {l' : List β} (h : List.Forall₂ R l l') (hne : l ≠ []) :
    ∃ a b i j, l = i ++ [a] ∧ l' = j ++ [b] ∧ List.Forall₂ R i j ∧ R a b := by
  induction h with
  | nil => exact absurd rfl hne
  | @cons x y l l' h1 h2 ih =>
    cases h2 with
    | nil => exact ⟨x, y, [], [], rfl, rfl, .nil, h1⟩
    | cons _ _ =>
      obtain ⟨a, b, i, j, e1, e2, e3, e4⟩ := ih (by simp)
      exact ⟨a, b, x :: i, y :: j, by rw [e1]; rfl, by rw [e2]; rfl, .cons h1 e3, e4⟩

/-- C55: make_sgf succeeds, adds one game, whose position and moves are the handicap stones and the moves of get_moves. -/
theorem C55_make_sgf (hN : NamesOK E) (hE : E.normalise "UTF-8".toList = some "UTF-8".toList) (hEc : E.codec "UTF-8".toList = utf8Codec)
    (isFloat : Rat → Prop) (hFl : FloatsOK F isFloat) {L : Lib} (hs : Session E F L) {version date : Str} (hv : utf8Valid version = true)
    (hdt : utf8Valid date = true) {r : Runner σ} (hr : Recordable isFloat r) :
    ∃ M g root nodes, makeSgf E F L version date r = .ok M ∧ Session E F M ∧ M.games = L.games ++ [g] ∧
      (∀ (o' : Nat) (g' : GameRec), L.games[o']? = some g' → M.mainSequence g' = L.mainSequence g') ∧
      g.presenter = Presenter.new r.boardSize utf8Codec F ∧ g.encoding = "UTF-8".toList ∧ M.mainSequence g = root :: nodes ∧
      Declares E root "UTF-8".toList ∧
      -- the moves
      ((∃ p, Go.OnBoard r.boardSize p ∧ p ∉ r.handicapStones.getD []) → ∃ b, M.getSetupAndMoves g = .ok (b, movesOf r) ∧ ReachableBoard r.boardSize b ∧ b.pos = handicapPosition r) ∧
      -- the properties of the game
      getKomi g.presenter root = .ok (.real (.fin (if -1/10000 < r.komi ∧ r.komi < 1/10000 then 0 else r.komi))) ∧
      ((∀ h, r.haProp = some h → 2 ≤ h) → getHandicap g.presenter root = .ok r.haProp) ∧
      (r.result = none → lookup root ['R', 'E'] = none) ∧
      (∀ res, r.result = some res → ∃ s, nodeGet g.presenter root ['R', 'E'] = .ok (.str s) ∧ Normalised true res.sgfResult s) ∧
      (∃ a v, nodeGet g.presenter root ['A', 'P'] = .ok (.pair (a, v)) ∧ Normalised true "gomill".toList a ∧ Normalised true version v) ∧
      (∃ d, nodeGet g.presenter root ['D', 'T'] = .ok (.str d) ∧ Normalised true date d) ∧
      -- the comments; the final message is in the last node
      List.Forall₂ (Comment g.presenter) (commentsOf r).dropLast (root :: nodes).dropLast ∧
      (∃ c m, (commentsOf r).getLast? = some c ∧ (root :: nodes).getLast? = some m ∧
        CommentWith g.presenter c (r.finalDiagnostics.map finalMessage) m) ∧
      -- nothing else
      (∀ k, k ∉ [['F', 'F'], ['G', 'M'], ['S', 'Z'], ['C', 'A'], ['K', 'M'], ['A', 'P'], ['R', 'E'], ['H', 'A'], ['D', 'T'], ['A', 'B'], ['A', 'W'], ['A', 'E'],
        ['C']] → lookup root k = none) := by
  have hF := hFl.chars
  obtain ⟨n2, n25⟩ := hr.size
  obtain ⟨L0, a1, h0⟩ := newGame_at hF hN hs (size := r.boardSize) (by omega) (by omega) hE
  rw [hEc] at h0
  generalize hgdef : (⟨Presenter.new r.boardSize utf8Codec F, "UTF-8".toList, L.heap.length⟩ : GameRec) = g at h0
  have hP : g.presenter = Presenter.new r.boardSize utf8Codec F := by rw [← hgdef]
  have hsz : g.presenter.size = r.boardSize := by rw [hP]; rfl
  have hcod : g.presenter.codec = utf8Codec := by rw [hP]; rfl
  have hflo : g.presenter.floats = F := by rw [hP]; rfl
  have hT : StandardTypes g.presenter := by rw [hP]; exact C50_standard _ _ _
  have h1 : 1 ≤ g.presenter.size := by rw [hsz]; omega
  have h2 : g.presenter.size ≤ 25 := by rw [hsz]; omega
  have hC : AsciiCompatible g.presenter.codec := by rw [hcod]; exact utf8_ok
  have hFl' : FloatsOK g.presenter.floats isFloat := by rw [hflo]; exact hFl
  have henc : ∀ s, Encodable g.presenter s := fun s => ⟨s, by rw [hcod]; rfl⟩
  have tKM : g.presenter.lookupType ['K', 'M'] = some .real := by rw [hP]; rfl
  have tAP : g.presenter.lookupType ['A', 'P'] = some .AP := by rw [hP]; rfl
  have tRE : g.presenter.lookupType ['R', 'E'] = some .simpletext := by rw [hP]; rfl
  have tHA : g.presenter.lookupType ['H', 'A'] = some .number := by rw [hP]; rfl
  have tDT : g.presenter.lookupType ['D', 'T'] = some .simpletext := by rw [hP]; rfl
  have iKM : ValidIdent ['K', 'M'] := ⟨by decide, by decide, by decide⟩
  have iAP : ValidIdent ['A', 'P'] := ⟨by decide, by decide, by decide⟩
  have iRE : ValidIdent ['R', 'E'] := ⟨by decide, by decide, by decide⟩
  have iHA : ValidIdent ['H', 'A'] := ⟨by decide, by decide, by decide⟩
  have iDT : ValidIdent ['D', 'T'] := ⟨by decide, by decide, by decide⟩
  -- the root node
  obtain ⟨L1, b1, k1⟩ := h0.setMaybe hF h1 h2 ['K', 'M'] iKM (by decide) tKM (some (.real (.fin r.komi))) (by rintro x ⟨⟩; trivial)
  obtain ⟨L2, b2, k2⟩ := k1.setMaybe hF h1 h2 ['A', 'P'] iAP (by decide) tAP (some (.pair ("gomill".toList, version)))
    (by rintro x ⟨⟩; exact ⟨henc _, henc _⟩)
  obtain ⟨L3, b3, k3⟩ := k2.setMaybe hF h1 h2 ['R', 'E'] iRE (by decide) tRE (r.result.map (fun res => .str res.sgfResult))
    (by intro x hx; cases hq : r.result with
        | none => rw [hq] at hx; cases hx
        | some res => rw [hq] at hx; cases hx; exact henc _)
  obtain ⟨L4, b4, k4⟩ := k3.setMaybe hF h1 h2 ['H', 'A'] iHA (by decide) tHA (r.haProp.map .num)
    (by intro x hx; cases hq : r.haProp with
        | none => rw [hq] at hx; cases hx
        | some res => rw [hq] at hx; cases hx; trivial)
  obtain ⟨L5, b5, k5⟩ := k4.setMaybe hF h1 h2 ['D', 'T'] iDT (by decide) tDT (some (.str date)) (by rintro x ⟨⟩; exact henc _)
  have hprops : L0.setRunnerProps g version date r = .ok L5 := by
    simp only [Lib.setRunnerProps, b1, b2, b3, b4, bind, Except.bind]
    exact b5
  generalize hm0 : newRootProps r.boardSize "UTF-8".toList = m0 at *
  generalize hm1 : Sgf.setMaybe g.presenter m0 ['K', 'M'] (some (.real (.fin r.komi))) = m1 at *
  generalize hm2 : Sgf.setMaybe g.presenter m1 ['A', 'P'] (some (.pair ("gomill".toList, version))) = m2 at *
  generalize hm3 : Sgf.setMaybe g.presenter m2 ['R', 'E'] (r.result.map (fun res => .str res.sgfResult)) = m3 at *
  generalize hm4 : Sgf.setMaybe g.presenter m3 ['H', 'A'] (r.haProp.map .num) = m4 at *
  generalize hm5 : Sgf.setMaybe g.presenter m4 ['D', 'T'] (some (.str date)) = m5 at *
  have f1 : ∀ k, k ≠ ['K', 'M'] → lookup m1 k = lookup m0 k := fun k hk => by rw [← hm1]; exact lookup_setMaybe _ _ _ _ k hk
  have f2 : ∀ k, k ≠ ['A', 'P'] → lookup m2 k = lookup m1 k := fun k hk => by rw [← hm2]; exact lookup_setMaybe _ _ _ _ k hk
  have f3 : ∀ k, k ≠ ['R', 'E'] → lookup m3 k = lookup m2 k := fun k hk => by rw [← hm3]; exact lookup_setMaybe _ _ _ _ k hk
  have f4 : ∀ k, k ≠ ['H', 'A'] → lookup m4 k = lookup m3 k := fun k hk => by rw [← hm4]; exact lookup_setMaybe _ _ _ _ k hk
  have f5 : ∀ k, k ≠ ['D', 'T'] → lookup m5 k = lookup m4 k := fun k hk => by rw [← hm5]; exact lookup_setMaybe _ _ _ _ k hk
  have gKM : ∃ v', nodeGet g.presenter m5 ['K', 'M'] = .ok v' ∧ Reads .real (.real (.fin r.komi)) v' := by
    rw [nodeGet_congr ((f5 ['K', 'M'] (by decide)).trans ((f4 _ (by decide)).trans ((f3 _ (by decide)).trans (f2 _ (by decide))))), ← hm1]
    exact get_setMaybe h1 h2 hC isFloat hFl' m0 _ iKM (by decide) tKM _ trivial hr.komi
  have gAP : ∃ v', nodeGet g.presenter m5 ['A', 'P'] = .ok v' ∧ Reads .AP (.pair ("gomill".toList, version)) v' := by
    rw [nodeGet_congr ((f5 ['A', 'P'] (by decide)).trans ((f4 _ (by decide)).trans (f3 _ (by decide)))), ← hm2]
    exact get_setMaybe h1 h2 hC isFloat hFl' m1 _ iAP (by decide) tAP _ ⟨henc _, henc _⟩ ⟨(by decide +kernel : utf8Valid "gomill".toList = true), hv⟩
  have gRE : ∀ res, r.result = some res → ∃ v', nodeGet g.presenter m5 ['R', 'E'] = .ok v' ∧ Reads .simpletext (.str res.sgfResult) v' := by
    intro res hres
    rw [nodeGet_congr ((f5 ['R', 'E'] (by decide)).trans (f4 _ (by decide))), ← hm3, hres]
    exact get_setMaybe h1 h2 hC isFloat hFl' m2 _ iRE (by decide) tRE _ (henc _) (hr.result res hres)
  have gHA : ∀ k, r.haProp = some k → ∃ v', nodeGet g.presenter m5 ['H', 'A'] = .ok v' ∧ Reads .number (.num k) v' := by
    intro k hk
    rw [nodeGet_congr (f5 ['H', 'A'] (by decide)), ← hm4, hk]
    exact get_setMaybe h1 h2 hC isFloat hFl' m3 _ iHA (by decide) tHA _ trivial trivial
  have gDT : ∃ v', nodeGet g.presenter m5 ['D', 'T'] = .ok v' ∧ Reads .simpletext (.str date) v' := by
    rw [← hm5]
    exact get_setMaybe h1 h2 hC isFloat hFl' m4 _ iDT (by decide) tDT _ (henc _) hdt
  have nRE : r.result = none → lookup m5 ['R', 'E'] = none := by
    intro h
    rw [f5 _ (by decide), f4 _ (by decide), ← hm3, h]
    simp only [Option.map_none, Sgf.setMaybe]
    rw [f2 _ (by decide), f1 _ (by decide), ← hm0]
    rfl
  have nHA : r.haProp = none → lookup m5 ['H', 'A'] = none := by
    intro h
    rw [f5 _ (by decide), ← hm4, h]
    simp only [Option.map_none, Sgf.setMaybe]
    rw [f3 _ (by decide), f2 _ (by decide), f1 _ (by decide), ← hm0]
    rfl
  have hold : ∀ k, k ≠ ['K', 'M'] → k ≠ ['A', 'P'] → k ≠ ['R', 'E'] → k ≠ ['H', 'A'] → k ≠ ['D', 'T'] → lookup m5 k = lookup m0 k := by
    intro k e1 e2 e3 e4 e5
    rw [f5 k e5, f4 k e4, f3 k e3, f2 k e2, f1 k e1]
  have nC : lookup m5 ['C'] = none := by rw [hold _ (by decide) (by decide) (by decide) (by decide) (by decide), ← hm0]; rfl
  have gCA : lookup m5 ['C', 'A'] = some ["UTF-8".toList] := by rw [hold _ (by decide) (by decide) (by decide) (by decide) (by decide), ← hm0]; rfl
  have nraw : getRawMove m5 = .ok none := by
    unfold getRawMove
    rw [find_eq_lookup, find_eq_lookup, hold _ (by decide) (by decide) (by decide) (by decide) (by decide),
      hold ['W'] (by decide) (by decide) (by decide) (by decide) (by decide), ← hm0]
    rfl
  have nsetup : ∀ k ∈ [['A', 'B'], ['A', 'W'], ['A', 'E']], m5.find k = none := by
    intro k hk
    simp only [List.mem_cons, List.not_mem_nil, or_false] at hk
    rw [find_eq_lookup, hold k (by rcases hk with rfl | rfl | rfl <;> decide) (by rcases hk with rfl | rfl | rfl <;> decide)
      (by rcases hk with rfl | rfl | rfl <;> decide) (by rcases hk with rfl | rfl | rfl <;> decide) (by rcases hk with rfl | rfl | rfl <;> decide), ← hm0]
    rcases hk with rfl | rfl | rfl <;> rfl
  -- the handicap stones
  obtain ⟨L6, m6, c1, k6, c2, c3, bp, c4, c5, c6⟩ : ∃ L6 m6, L5.setHandicapStones g r.handicapStones = .ok L6 ∧ At E F L L6 g [m6] ∧
      (∀ k, k ≠ ['A', 'B'] → k ≠ ['A', 'W'] → k ≠ ['A', 'E'] → lookup m6 k = lookup m5 k) ∧ getRawMove m6 = .ok none ∧
      ∃ bp, getSetupStones m6 r.boardSize = .ok (bp, [], []) ∧ SameSet bp (r.handicapStones.getD []) ∧ (hasSetupStones m6 = true ↔ bp ++ [] ≠ []) := by
    have hno : r.handicapStones.getD [] = [] → ∃ bp, getSetupStones m5 r.boardSize = .ok (bp, [], []) ∧ SameSet bp (r.handicapStones.getD []) ∧
        (hasSetupStones m5 = true ↔ bp ++ [] ≠ []) := by
      intro he
      refine ⟨[], ?_, by rw [he]; exact fun _ => Iff.rfl, ?_⟩
      · unfold getSetupStones getPointList
        rw [nsetup _ (by simp), nsetup _ (by simp), nsetup _ (by simp)]
        rfl
      · unfold hasSetupStones PropMap.has
        rw [nsetup _ (by simp), nsetup _ (by simp), nsetup _ (by simp)]
        simp
    cases hst : r.handicapStones with
    | none => rw [hst] at hno; exact ⟨L5, m5, rfl, k5, fun _ _ _ _ => rfl, nraw, hno rfl⟩
    | some ps =>
      cases ps with
      | nil => rw [hst] at hno; exact ⟨L5, m5, rfl, k5, fun _ _ _ _ => rfl, nraw, hno rfl⟩
      | cons p ps =>
        obtain ⟨d1, ⟨bb, ww, ee, d2, d3, d4, d5, _⟩, d6⟩ := C51_set_setup g.presenter hT h1 h2 m5 (p :: ps) [] [] (by
          intro q hq
          rw [hsz]
          have := hr.stones q (by rw [hst]; simpa using hq)
          exact onBoard_int.2 this)
        obtain ⟨L6, e1, e2⟩ := k5.root hF (.setSetupStones (p :: ps) [] []) d1
        refine ⟨L6, _, e1, e2, ?_, ?_, bb, ?_, by simpa using d3, ?_⟩
        · intro k x1 x2 x3
          exact C51_frame g.presenter m5 (.setSetupStones (p :: ps) [] []) k (by simp [NodeOp.Touches, x1, x2, x3])
        · simp only [NodeOp.apply]
          rw [setup_frame]; exact nraw
        · have hw : ww = [] := by
            cases ww with
            | nil => rfl
            | cons x _ => exact absurd ((d4 x).1 (by simp)) (by simp)
          have he : ee = [] := by
            cases ee with
            | nil => rfl
            | cons x _ => exact absurd ((d5 x).1 (by simp)) (by simp)
          rw [hw, he, hsz] at d2
          exact d2
        · rw [show (NodeOp.apply g.presenter m5 (.setSetupStones (p :: ps) [] [])) = setSetupStones g.presenter m5 (p :: ps) [] [] from rfl, d6]
          constructor
          · intro _ hb
            have := (d3 p).2 (by simp)
            rw [List.append_nil] at hb
            rw [hb] at this
            cases this
          · intro _ h; cases h
  -- the moves and comments
  obtain ⟨L7, nodes, e1, k7, e2⟩ := moveComments hF hT hcod isFloat hFl' h1 h2 r.moves k6
    (fun x hx p hp => by rw [hsz]; exact onBoard_int.2 (hr.moves x hx p hp)) hr.comments
  have hcom : List.Forall₂ (Comment g.presenter) (commentsOf r) (m6 :: nodes) := by
    unfold commentsOf
    refine .cons ?_ ?_
    · show lookup m6 ['C'] = none
      rw [c2 _ (by decide) (by decide) (by decide)]; exact nC
    · rw [List.forall₂_map_left_iff]
      exact e2.imp (fun _ _ h => h.2.2)
  obtain ⟨c, m, ci, mi, i1, i2, i3, i4⟩ := forall₂_init_last hcom (by simp [commentsOf])
  rw [List.singleton_append, i2] at k7
  obtain ⟨M, m', j1, k8, j2, j3⟩ := finalComment hF hT hcod isFloat hFl' h1 h2 k7 i4 r.finalDiagnostics (by
    rintro ⟨x, y⟩ hx
    exact finalMessage_valid (hr.final x y hx))
  have hsame : List.Forall₂ SameMoves (m6 :: nodes) (mi ++ [m']) := by
    rw [i2]
    refine List.rel_append (List.forall₂_same.2 (fun x _ => SameMoves.refl x)) (.cons ?_ .nil)
    intro k hk
    rw [find_eq_lookup, find_eq_lookup, j3 k]
    rintro rfl
    exact absurd hk (by decide)
  have hother : ∃ root' nodes', mi ++ [m'] = root' :: nodes' ∧ ∀ k, k ≠ ['C'] → lookup root' k = lookup m6 k := by
    cases mi with
    | nil =>
      simp only [List.nil_append, List.cons.injEq] at i2
      exact ⟨m', [], rfl, fun k hk => by rw [j3 k hk, ← i2.1]⟩
    | cons x mi =>
      simp only [List.cons_append, List.cons.injEq] at i2
      exact ⟨x, mi ++ [m'], rfl, fun k _ => by rw [← i2.1]⟩
  obtain ⟨root, nodes', hroot, hlk⟩ := hother
  have hlk5 : ∀ k, k ≠ ['C'] → k ≠ ['A', 'B'] → k ≠ ['A', 'W'] → k ≠ ['A', 'E'] → lookup root k = lookup m5 k :=
    fun k x1 x2 x3 x4 => by rw [hlk k x1, c2 k x2 x3 x4]
  have hget : ∀ k, k ≠ ['C'] → k ≠ ['A', 'B'] → k ≠ ['A', 'W'] → k ≠ ['A', 'E'] → nodeGet g.presenter root k = nodeGet g.presenter m5 k :=
    fun k x1 x2 x3 x4 => nodeGet_congr (hlk5 k x1 x2 x3 x4)
  rw [hroot] at k8 hsame
  refine ⟨M, g, root, nodes', ?_, k8.session, k8.games, k8.frame, hP, by rw [← hgdef], k8.seq, ?_, ?_, ?_, ?_, ?_, ?_, ?_, ?_, ?_, ?_, ?_⟩
  · unfold makeSgf
    rw [a1]
    simp only [bind, Except.bind]
    have : L0.games.getLast? = some g := by rw [h0.games]; simp
    rw [this]
    simp only [hprops, c1, e1]
    exact j1
  · unfold Declares
    rw [hlk5 _ (by decide) (by decide) (by decide) (by decide), gCA]
    have := hN.chars _ _ hE
    exact ⟨_, rfl, hE, this.1, fun c hc => ⟨(this.2 c hc).1, (this.2 c hc).2.2⟩⟩
  · intro hfree
    have hc7 := collectMoves_nodes e2
    rw [hsz] at hc7
    have hbp : Go.setupPos (fun _ => none) bp [] [] = handicapPosition r := by
      funext q
      have := c5 q
      unfold Go.setupPos handicapPosition
      by_cases hq : q ∈ r.handicapStones.getD []
      · simp [hq, this.2 hq]
      · have hq' : q ∉ bp := fun x => hq (this.1 x)
        simp [hq, hq']
    obtain ⟨b', x1, x2, x3⟩ := setup_read (n := r.boardSize) (by omega) c3 hc7 c4 c6 (by
      intro q hq
      exact hr.stones q ((c5 q).1 (by simpa using hq))) (by
      rw [hbp]
      intro q hq hne
      obtain ⟨e, he1, he2⟩ := hfree
      refine Go.one_colour_liberty (c := .b) ?_ hq he1 (by unfold handicapPosition; rw [if_neg he2]) ?_
      · intro x _ hx
        unfold handicapPosition at hx
        split at hx <;> cases hx
      · unfold handicapPosition at hne ⊢
        split
        · rfl
        · rename_i h; rw [if_neg h] at hne; exact absurd rfl hne)
    refine ⟨b', ?_, x2, by rw [x3, hbp]⟩
    unfold Lib.getSetupAndMoves
    rw [k8.seq, hsz, ← getSetupAndMoves_congr _ hsame]
    exact x1
  · obtain ⟨v', x1, x2⟩ := gKM
    unfold getKomi
    rw [hget _ (by decide) (by decide) (by decide) (by decide), x1]
    cases v' <;> simp only [Reads] at x2
    rename_i rv
    cases rv <;> simp only at x2
    rw [x2]
  · intro hge
    unfold getHandicap
    rw [hget _ (by decide) (by decide) (by decide) (by decide)]
    cases hk : r.haProp with
    | none => rw [nodeGet_absent (nHA hk)]
    | some k =>
      obtain ⟨v', x1, x2⟩ := gHA k hk
      rw [x1]
      cases v' <;> simp only [Reads] at x2
      subst x2
      have := hge _ hk
      simp only
      rw [if_neg (by omega), if_neg (by omega)]
  · intro h
    rw [hlk5 _ (by decide) (by decide) (by decide) (by decide)]
    exact nRE h
  · intro res hres
    obtain ⟨v', x1, x2⟩ := gRE res hres
    cases v' <;> simp only [Reads] at x2
    exact ⟨_, by rw [hget _ (by decide) (by decide) (by decide) (by decide), x1], x2⟩
  · obtain ⟨v', x1, x2⟩ := gAP
    cases v' <;> simp only [Reads] at x2
    exact ⟨_, _, by rw [hget _ (by decide) (by decide) (by decide) (by decide), x1], x2.1, x2.2⟩
  · obtain ⟨v', x1, x2⟩ := gDT
    cases v' <;> simp only [Reads] at x2
    exact ⟨_, by rw [hget _ (by decide) (by decide) (by decide) (by decide), x1], x2⟩
  · rw [← hroot, i1, List.dropLast_concat, List.dropLast_concat]
    exact i3
  · exact ⟨c, m', by rw [i1]; simp, by rw [← hroot]; simp, j2⟩
  · intro k hk
    simp only [List.mem_cons, List.not_mem_nil, or_false, not_or] at hk
    obtain ⟨q1, q2, q3, q4, q5, q6, q7, q8, q9, q10, q11, q12, q13⟩ := hk
    rw [hlk5 k q13 q10 q11 q12, hold k q5 q6 q7 q8 q9, ← hm0]
    have e1 : (['F', 'F'] : Str) ≠ k := Ne.symm q1
    have e2 : (['G', 'M'] : Str) ≠ k := Ne.symm q2
    have e3 : (['S', 'Z'] : Str) ≠ k := Ne.symm q3
    have e4 : (['C', 'A'] : Str) ≠ k := Ne.symm q4
    simp [newRootProps, lookup, e1, e2, e3, e4]

/-! ### After running a game -/

/-- The comments that the backend gives are UTF-8. -/
def Utf8Comments (B : Backend σ) : Prop := ∀ c env s, (B.getLastMoveComment c env).1 = .ok (some s) → utf8Valid s = true

/-- What running a game doesn't change, and the texts it records. -/
structure RunInv (r0 r : Runner σ) : Prop where
  size : r.boardSize = r0.boardSize
  komi : r.komi = r0.komi
  ha : r.haProp = r0.haProp
  stones : r.handicapStones = r0.handicapStones
  comments : ∀ x ∈ r.moves, ∀ s, x.2.2 = some s → utf8Valid s = true
  final : ∀ c s, r.finalDiagnostics = some (c, s) → utf8Valid s = true

theorem RunInv.env {r0 r : Runner σ} (h : RunInv r0 r) (env : σ) : RunInv r0 { r with env := env } :=
  ⟨h.size, h.komi, h.ha, h.stones, h.comments, h.final⟩

theorem RunInv.call {r0 : Runner σ} {s : Run σ} (h : RunInv r0 s.r) {α : Type} (f : σ → Except GExc α × σ) : RunInv r0 (s.call f).2.r := h.env _

theorem RunInv.record {r0 : Runner σ} {s : Run σ} (h : RunInv r0 s.r) (B : Backend σ) (f : Game → Except GExc Unit × Game) :
    RunInv r0 (s.record B f).2.r := by
  obtain ⟨_, ⟨env, he⟩, _⟩ := record_spec B s f
  rw [he]; exact h.env _

theorem RunInv.diag {r0 : Runner σ} {s : Run σ} (h : RunInv r0 s.r) (c : Colour) (m : Option Str) (hm : ∀ t, m = some t → utf8Valid t = true) :
    RunInv r0 (s.setFinalDiagnostics c m).r := by
  unfold Run.setFinalDiagnostics
  cases m with
  | none => exact h
  | some t =>
    refine ⟨h.size, h.komi, h.ha, h.stones, h.comments, ?_⟩
    intro c' s' hs
    cases hs
    exact hm t rfl

theorem RunInv.andThen {r0 : Runner σ} {α β : Type} {x : Except GExc α × Run σ} {k : α → Run σ → Except GExc β × Run σ} (hx : RunInv r0 x.2.r)
    (hk : ∀ a, x.1 = .ok a → RunInv r0 (k a x.2).2.r) : RunInv r0 (andThen x k).2.r := by
  obtain ⟨y | y, s⟩ := x
  · exact hx
  · exact hk y rfl

theorem endedByPlayer_inv {B : Backend σ} (hB : Utf8Comments B) {r0 : Runner σ} {s : Run σ} (h : RunInv r0 s.r) (c : Colour) :
    RunInv r0 (endedByPlayer B c s).2.r := by
  unfold endedByPlayer
  refine RunInv.andThen (h.call _) ?_
  intro a ha
  exact RunInv.diag (h.call _) c a (fun t ht => hB c s.r.env t (by rw [← ht]; exact ha))

theorem playMove_inv {B : Backend σ} (hB : Utf8Comments B) {r0 : Runner σ} {s : Run σ} (h : RunInv r0 s.r) (c : Colour) (m : Option Pt) :
    RunInv r0 (playMove B c m s).2.r := by
  unfold playMove
  refine RunInv.andThen (h.record B _) ?_
  intro _ _
  have h1 := h.record B (fun g => g.recordMove c m)
  generalize (s.record B (fun g => g.recordMove c m)).2 = s1 at h1 ⊢
  refine RunInv.andThen (h1.call _) ?_
  intro cm hcm
  have h2 := h1.call (B.getLastMoveComment c)
  have hv : ∀ t, cm = some t → utf8Valid t = true := fun t ht => hB c s1.r.env t (by rw [← ht]; exact hcm)
  generalize (s1.call (B.getLastMoveComment c)).2 = s2 at h2 ⊢
  split
  · exact h2.diag c cm hv
  · refine RunInv.andThen (h2.call _) ?_
    intro sm _
    have h3 := h2.call (B.notifyMove c.opponent m)
    generalize (s2.call (B.notifyMove c.opponent m)).2 = s3 at h3 ⊢
    split
    · exact h3
    · split
      · refine RunInv.andThen (h3.record B _) ?_
        intro _ _
        exact (h3.record B _).diag c cm hv
      · refine RunInv.env (r := { s3.r with moves := s3.r.moves ++ [(c, m, cm)] }) ⟨h3.size, h3.komi, h3.ha, h3.stones, ?_, h3.final⟩ _
        intro x hx t ht
        rcases List.mem_append.1 hx with hx | hx
        · exact h3.comments x hx t ht
        · rw [List.mem_singleton] at hx
          subst hx
          exact hv t ht

theorem doMove_inv {B : Backend σ} (hB : Utf8Comments B) {r0 : Runner σ} {s : Run σ} (h : RunInv r0 s.r) : RunInv r0 (doMove B s).2.r := by
  unfold doMove
  split
  · exact h
  · rename_i c _
    refine RunInv.andThen (h.call _) ?_
    intro act _
    have h1 := h.call (B.getMove c)
    generalize (s.call (B.getMove c)).2 = s1 at h1 ⊢
    split
    · refine RunInv.andThen (h1.record B _) ?_
      intro _ _
      exact endedByPlayer_inv hB (h1.record B _) c
    · refine RunInv.andThen (h1.record B _) ?_
      intro _ _
      exact endedByPlayer_inv hB (h1.record B _) c
    · refine RunInv.andThen (h1.record B _) ?_
      intro _ _
      exact endedByPlayer_inv hB (h1.record B _) c
    · exact playMove_inv hB h1 c _
    · exact h1

theorem runLoop_inv {B : Backend σ} (hB : Utf8Comments B) {r0 : Runner σ} : ∀ (fuel : Nat) {s : Run σ} {x : Except GExc Unit × Run σ},
    RunInv r0 s.r → runLoop B fuel s = some x → RunInv r0 x.2.r := by
  intro fuel
  induction fuel with
  | zero =>
    intro s x h hx
    rw [runLoop] at hx
    split at hx
    · cases hx; exact h
    · cases hx
  | succ fuel ih =>
    intro s x h hx
    rw [runLoop] at hx
    split at hx
    · cases hx; exact h
    · have := doMove_inv hB h
      rcases hd : doMove B s with ⟨y | y, s'⟩
      · rw [hd] at hx this; cases hx; exact this
      · rw [hd] at hx this
        exact ih this hx

theorem setResult_inv {B : Backend σ} {r0 : Runner σ} (fmt : Rat → Str) {s : Run σ} (h : RunInv r0 s.r) : RunInv r0 (setResult B fmt s).2.r := by
  have key : ∀ (t : Run σ) (sc : Option GameScore) (rr : Option Res), RunInv r0 t.r → RunInv r0 { t.r with gameScore := sc, result := rr } :=
    fun t sc rr h => ⟨h.size, h.komi, h.ha, h.stones, h.comments, h.final⟩
  unfold setResult
  split
  · refine RunInv.andThen (h.call _) ?_
    intro sc _
    have h1 := h.call (B.scoreGame s.game.board)
    generalize (s.call (B.scoreGame s.game.board)).2 = s1 at h1 ⊢
    simp only
    split
    · exact key s1 _ s1.r.result h1
    · exact key s1 _ _ h1
  · split
    · exact h
    · exact key s s.r.gameScore _ h

theorem run_inv {B : Backend σ} (hB : Utf8Comments B) (fmt : Rat → Str) {r r' : Runner σ} (hm : r.moves = []) (hf : r.finalDiagnostics = none) {fuel : Nat}
    {res : Except GExc Unit} {game : Option Game} (h : r.run B fmt fuel = some (res, r', game)) : RunInv r r' := by
  have h0 : RunInv r r := ⟨rfl, rfl, rfl, rfl, by rw [hm]; simp, by rw [hf]; simp⟩
  unfold Runner.run at h
  split at h
  · cases h; exact h0
  · rcases hg : r.makeGame with x | g
    · rw [hg] at h; cases h; exact h0
    · rw [hg] at h
      simp only at h
      rcases hl : runLoop B fuel ⟨{ r with state := 3 }, g⟩ with _ | x
      · rw [hl] at h; cases h
      · rw [hl] at h
        have h1 : RunInv r x.2.r := runLoop_inv hB fuel (s := ⟨{ r with state := 3 }, g⟩) ⟨rfl, rfl, rfl, rfl, h0.comments, h0.final⟩ hl
        simp only [Option.some.injEq, Prod.mk.injEq] at h
        rw [← h.2.1]
        exact RunInv.andThen h1 (fun _ _ => setResult_inv fmt h1)

theorem call_snd {α : Type} {r r1 : Runner σ} {f : σ → Except GExc α × σ} {x : Except GExc α} (h : r.call f = (x, r1)) :
    r1 = { r with env := (f r.env).2 } := (congrArg Prod.snd h).symm

theorem prepared_more {B : Backend σ} {r : Runner σ} (h : Prepared B r) : r.finalDiagnostics = none ∧ ∀ k, r.haProp = some k → 2 ≤ k := by
  induction h with
  | init => exact ⟨rfl, by simp [Runner.init]⟩
  | @prepare r _ ih =>
    unfold Runner.prepare
    split
    · exact ih
    · split <;> (rename_i he; rw [call_snd he]; exact ih)
  | @handicap r k free _ ih =>
    unfold Runner.setHandicap
    split
    · exact ih
    · split
      · split
        · exact ih
        · rename_i hk
          split
          · rename_i he; rw [call_snd he]; exact ih
          · rename_i he
            split
            · rename_i he'; rw [call_snd he', call_snd he]; exact ih
            · rename_i he'; rw [call_snd he', call_snd he]
              exact ⟨ih.1, by rintro k' ⟨⟩; omega⟩
      · split
        · exact ih
        · rename_i pts hp
          have hk : 2 ≤ k := by
            apply Classical.byContradiction
            intro hlt
            unfold Handicap.points at hp
            simp only [bind, Except.bind, throw, throwThe, MonadExceptOf.throw, pure, Except.pure] at hp
            cases hmf : Handicap.maxFixed r.boardSize with
            | error e => rw [hmf] at hp; cases hp
            | ok mx =>
              rw [hmf] at hp
              simp only at hp
              split at hp
              · cases hp
              · rw [if_pos (by omega)] at hp; cases hp
          split
          · rename_i he; rw [call_snd he]; exact ih
          · rename_i he
            split
            · rename_i he'; rw [call_snd he', call_snd he]; exact ih
            · rename_i he'; rw [call_snd he', call_snd he]
              exact ⟨ih.1, by rintro k' ⟨⟩; exact hk⟩
  | backend env _ ih => exact ih

/-- A result string which names the winner. -/
def NamesWinner (res : Res) : Prop :=
  match res.winningColour with
  | some c => ∃ s, res.sgfResult = c.upper :: s
  | none => res.sgfResult = ['?'] ∨ res.sgfResult = ['0'] ∨ res.sgfResult = "Void".toList

theorem getWinner_spec {P : Presenter} {root : PropMap} {res : Res} (h : NamesWinner res) {s : Str} (hs : nodeGet P root ['R', 'E'] = .ok (.str s))
    (hn : Normalised true res.sgfResult s) : getWinner P root = .ok res.winningColour := by
  unfold getWinner
  rw [hs]
  have hs' := normalised_eq hn
  unfold NamesWinner at h
  cases hw : res.winningColour with
  | none =>
    rw [hw] at h
    rcases h with h | h | h <;> (rw [h] at hs'; subst hs'; decide +kernel)
  | some c =>
    rw [hw] at h
    obtain ⟨t, ht⟩ := h
    rw [ht] at hn
    generalize hx : c.upper :: t = x at hn
    cases hn with
    | nil => cases hx
    | lineBreak hb _ => cases hb <;> cases c <;> cases hx
    | @char d s t' h1 h2 h3 =>
      cases hx
      cases c <;> rfl

theorem utf8Valid_of_ascii : ∀ {s : Str}, (∀ c ∈ s, c.toNat < 128) → utf8Valid s = true
  | [], _ => by decide
  | c :: s, h => by
    rw [utf8Valid_ascii (h c (by simp))]
    exact utf8Valid_of_ascii (fun d hd => h d (by simp [hd]))

theorem utf8Valid_strInt (i : Int) : utf8Valid (strInt i) = true := by
  apply utf8Valid_of_ascii
  intro c hc
  have hdig : ∀ (k : Nat) (c : Char), c ∈ strInt (k : Int) → c.toNat < 128 := by
    intro k c hc
    rw [strInt_natCast] at hc
    have := Nat.isDigit_of_mem_toDigits (by omega) (by omega) hc
    simp only [Char.isDigit, Bool.and_eq_true, decide_eq_true_eq] at this
    have h2 : c.val ≤ 57 := this.2
    have h3 : c.val.toNat ≤ 57 := h2
    show c.val.toNat < 128
    omega
  cases i with
  | ofNat k => exact hdig k c hc
  | negSucc k =>
    have : strInt (Int.negSucc k) = '-' :: strInt ((k + 1 : Nat) : Int) := by
      rw [strInt_natCast]; simp [strInt]
    rw [this] at hc
    rcases List.mem_cons.1 hc with rfl | hc
    · decide
    · exact hdig _ c hc

theorem fromScore_names {fmt : Rat → Str} (hfmt : ∀ q, utf8Valid (fmt q) = true) {w : Option Colour} {m : Option Num} {d : Option Str} {r : Res}
    (h : Res.fromScore fmt w m d = .ok r) : NamesWinner r ∧ utf8Valid r.sgfResult = true := by
  unfold Res.fromScore at h
  cases m with
  | none =>
    cases h
    cases w with
    | none => exact ⟨Or.inl rfl, (by decide +kernel : utf8Valid ['?'] = true)⟩
    | some c => exact ⟨⟨_, rfl⟩, (by cases c <;> decide +kernel : utf8Valid [c.upper, '+'] = true)⟩
  | some m =>
    simp only at h
    split at h
    · cases h
    · cases w with
      | none =>
        simp only at h
        split at h
        · cases h; exact ⟨Or.inr (Or.inl rfl), (by decide +kernel : utf8Valid ['0'] = true)⟩
        · cases h
      | some c =>
        simp only at h
        split at h
        · cases h
        · cases hf : formatFloat fmt m with
          | error e => rw [hf] at h; cases h
          | ok s =>
            rw [hf] at h
            cases h
            refine ⟨⟨_, rfl⟩, utf8Valid_concat _ _ _ (Nat.le_refl _) (by cases c <;> decide +kernel : utf8Valid [c.upper, '+'] = true) ?_⟩
            unfold formatFloat at hf
            cases m with
            | fin q =>
              simp only [Except.ok.injEq] at hf
              rw [← hf]
              split
              · exact utf8Valid_strInt _
              · exact hfmt q
            | _ => cases hf

theorem unscored_names {n : Nat} {b0 : Board} {first : Colour} {limit : Option Int} {h : List Go.Mv} {e : Option Ending} {g : Game}
    (hn : n ≤ 25) (hb : ReachableBoard n b0) (hp : Played n b0 first limit h e g) (ho : g.isOver = true) (hnp : g.passedOut = false)
    {r : Res} (hr : Res.fromUnscoredGame g = .ok r) : NamesWinner r ∧ utf8Valid r.sgfResult = true := by
  obtain ⟨r', e1, e2, _, _, e3, e4, e5, e6, e7⟩ := C30_unscored hn hb hp ho hnp
  rw [hr] at e1
  cases e1
  unfold NamesWinner
  cases e with
  | none => rw [e2, (e3 rfl).1]; exact ⟨Or.inr (Or.inr rfl), by decide +kernel⟩
  | some x =>
    rw [e2]
    cases x with
    | resigned c => rw [(e4 c rfl).1]; exact ⟨⟨_, rfl⟩, by cases c <;> decide +kernel⟩
    | claimed c => rw [(e5 c rfl).1]; exact ⟨⟨_, rfl⟩, by cases c <;> decide +kernel⟩
    | forfeited c x => rw [(e6 c x rfl).1]; exact ⟨⟨_, rfl⟩, by cases c <;> decide +kernel⟩
    | illegal c p => rw [(e7 c p rfl).1]; exact ⟨⟨_, rfl⟩, by cases c <;> decide +kernel⟩

theorem played_onBoard {n : Nat} {b0 : Board} {first : Colour} {limit : Option Int} {h : List Go.Mv} {e : Option Ending} {g : Game}
    (hp : Played n b0 first limit h e g) : ∀ x ∈ h, ∀ p, x.2 = some p → Go.OnBoard n p := by
  induction hp with
  | start => simp
  | move c m _ hm _ _ ih =>
    intro x hx p hxp
    rcases List.mem_append.1 hx with hx | hx
    · exact ih x hx p hxp
    · rw [List.mem_singleton] at hx
      subst hx
      exact hm p hxp
  | illegal _ _ _ _ _ _ ih => exact ih
  | moveError _ _ _ _ _ ih => exact ih
  | resign _ _ _ ih => exact ih
  | resignError _ _ _ ih => exact ih
  | claim _ _ _ ih => exact ih
  | claimError _ _ _ ih => exact ih
  | forfeit _ _ _ _ ih => exact ih
  | forfeitError _ _ _ _ ih => exact ih

/-- C55: the record of a game that was run, whether it was completed or stopped by an exception: it can be made (if the
handicap stones don't cover the board); it has the handicap stones and the moves reported, the komi and the handicap; if
the game was completed get_winner gives the winner of the result, and otherwise None. Loading it gives the same. -/
theorem C55_run (hN : NamesOK E) (hE : E.normalise "UTF-8".toList = some "UTF-8".toList) (hEc : E.codec "UTF-8".toList = utf8Codec)
    (isFloat : Rat → Prop) (hFl : FloatsOK F isFloat) {L : Lib} (hs : Session E F L) {version date : Str} (hv : utf8Valid version = true)
    (hdt : utf8Valid date = true) (B : Backend σ) (hB : Utf8Comments B) (fmt : Rat → Str) (hfmt : ∀ q, utf8Valid (fmt q) = true)
    (r : Runner σ) (hp : Prepared B r) (hsize : 2 ≤ r.boardSize ∧ r.boardSize ≤ 25) (hkomi : isFloat r.komi)
    (hst : ∀ p ∈ r.handicapStones.getD [], Go.OnBoard r.boardSize p)
    (fuel : Nat) (res : Except GExc Unit) (r' : Runner σ) (game : Option Game) (hrun : r.run B fmt fuel = some (res, r', game)) :
    ∃ M g, makeSgf E F L version date r' = .ok M ∧ Session E F M ∧ M.games = L.games ++ [g] ∧
      ((∃ p, Go.OnBoard r.boardSize p ∧ p ∉ r.handicapStones.getD []) → ∃ b, M.getSetupAndMoves g = .ok (b, movesOf r') ∧ ReachableBoard r.boardSize b ∧ b.pos = handicapPosition r) ∧
      getKomi g.presenter (M.heap.props g.root) = .ok (.real (.fin (if -1/10000 < r.komi ∧ r.komi < 1/10000 then 0 else r.komi))) ∧
      getHandicap g.presenter (M.heap.props g.root) = .ok r.haProp ∧
      getWinner g.presenter (M.heap.props g.root) = .ok (r'.result.bind Res.winningColour) ∧
      (res = .ok () ↔ r'.result.isSome) ∧
      ∀ wrap, ∃ s, M.serialise E g wrap = .ok s ∧ ∀ M1 : Lib, ∃ M2 g2, M1.fromString E F s none = .ok M2 ∧ M2.games = M1.games ++ [g2] ∧
        g2.presenter = g.presenter ∧ SameMap (M.heap.props g.root) (M2.heap.props g2.root) ∧
        List.Forall₂ SameMap (M.mainSequence g) (M2.mainSequence g2) ∧ M2.getSetupAndMoves g2 = M.getSetupAndMoves g := by
  have hinv := run_inv hB fmt (Prepared.fresh hp).1 (prepared_more hp).1 hrun
  obtain ⟨hmv, herr, hok⟩ := C31_run B fmt r hp hsize.2 fuel res r' game hrun
  have hres : ∀ rr, r'.result = some rr → NamesWinner rr ∧ utf8Valid rr.sgfResult = true := by
    intro rr hrr
    cases res with
    | error x => rw [herr x rfl] at hrr; cases hrr
    | ok u =>
      obtain ⟨b0, h, e, g, c1, _, _, c2, c3, rr', c4, c5, c6⟩ := hok rfl
      rw [c4] at hrr
      cases hrr
      cases hpo : g.passedOut with
      | true =>
        obtain ⟨sc, env, _, _, c7⟩ := c5 hpo
        exact fromScore_names hfmt c7
      | false => exact unscored_names hsize.2 c1.reachable c2 c3 hpo (c6 hpo).1
  have hrec : Recordable isFloat r' := by
    refine ⟨by rw [hinv.size]; exact hsize, by rw [hinv.komi]; exact hkomi, ?_, hinv.comments, hinv.final, fun rr hrr => (hres rr hrr).2, ?_⟩
    · rw [hinv.size]
      intro x hx p hxp
      have hxm : (x.1, x.2.1) ∈ movesOf r' := List.mem_map.2 ⟨x, hx, rfl⟩
      rcases hmv with hmv | ⟨b0, first, h, e, g, _, _, hpl, hh⟩
      · rw [hmv] at hxm; cases hxm
      · refine played_onBoard hpl (x.1, x.2.1) ?_ p hxp
        rcases hh with hh | ⟨m, c, y, hh, _⟩
        · rw [← hh]; exact hxm
        · rw [hh]; exact List.mem_append_left _ hxm
    · rw [hinv.size, hinv.stones]; exact hst
  obtain ⟨M, g, root, nodes, a1, a2, a3, a4, a5, a6, a7, a8, a9, a10, a11, a12, a13, _⟩ := C55_make_sgf hN hE hEc isFloat hFl hs hv hdt hrec
  have hg : M.games[L.games.length]? = some g := by rw [a3, List.getElem?_append_right (Nat.le_refl _)]; simp
  have hroot : M.heap.props g.root = root := by
    rw [mainSequence_cons] at a7
    exact (List.cons.inj a7).1
  have hhp : handicapPosition r' = handicapPosition r := by unfold handicapPosition; rw [hinv.stones]
  refine ⟨M, g, a1, a2, a3, ?_, ?_, ?_, ?_, ?_, ?_⟩
  · intro hfree
    obtain ⟨b, b1, b2, b3⟩ := a9 (by rw [hinv.size, hinv.stones]; exact hfree)
    exact ⟨b, b1, by rw [← hinv.size]; exact b2, by rw [b3, hhp]⟩
  · rw [hroot, ← hinv.komi]; exact a10
  · rw [hroot, ← hinv.ha]
    refine a11 ?_
    rw [hinv.ha]
    exact (prepared_more hp).2
  · rw [hroot]
    cases hr' : r'.result with
    | none =>
      unfold getWinner
      rw [nodeGet_absent (a12 hr')]
      rfl
    | some rr =>
      obtain ⟨s, b1, b2⟩ := a13 rr hr'
      exact getWinner_spec (hres rr hr').1 b1 b2
  · cases res with
    | error x => rw [herr x rfl]; simp
    | ok u =>
      obtain ⟨_, _, _, _, _, _, _, _, _, rr, hrr, _⟩ := hok rfl
      rw [hrr]; simp
  · intro wrap
    obtain ⟨s, b1, b2⟩ := C54_round_trip hFl.chars hN a2 hg (by rw [a5]; rfl) (by rw [hroot, a6]; exact a8) (by rw [a6, hEc]; exact utf8_ok) wrap
    refine ⟨s, b1, ?_⟩
    intro M1
    obtain ⟨M2, g2, c1, c2, c3, c4, c5⟩ := b2 M1
    refine ⟨M2, g2, c1, c2, by rw [c3, a5, a6, hEc]; rfl, ?_, c4, c5⟩
    rw [mainSequence_cons, mainSequence_cons] at c4
    cases c4 with
    | cons h _ => exact h

/-! ### witness -/

/-- White plays in the centre and explains; Black resigns with a message. -/
def exampleTalkers : Backend Nat where
  startNewGame _ _ s := (.ok (), s)
  endGame s := (.ok (), s)
  getFreeHandicap _ s := (.ok [], s)
  notifyFreeHandicap _ s := (.ok (), s)
  notifyFixedHandicap _ _ _ s := (.ok (), s)
  getMove _ s := (.ok (if s = 0 then .move (some (4, 4)) else .resign), s + 1)
  notifyMove _ _ s := (.ok (.accept, none), s)
  scoreGame b s := (GameScore.fromPosition b 0 .no 0, s)
  getLastMoveComment c s := (.ok (some (if c = .w then "[tengen]".toList else "bye".toList)), s)
  afterMove _ _ _ s := (.ok (), s)

/-- Before the game: two handicap stones. -/
def exampleRunner : Runner Nat := ((((Runner.init 0 9 (13/2) (some 20)).prepare exampleTalkers).2).setHandicap exampleTalkers 2 false).2

/-- The SGF file. -/
def exampleFile : Option (Except Exc Str) :=
  (exampleRunner.run exampleTalkers (fun _ => []) 20).map fun x =>
    (makeSgf exampleEncodings exampleFloats ⟨[], []⟩ "0.8".toList "2012-01-01".toList x.2.1).bind fun M =>
      M.serialise exampleEncodings ⟨Presenter.new 9 utf8Codec exampleFloats, "UTF-8".toList, 0⟩ none

/-- C55: non-vacuity: a game and its record. -/
theorem C55_witness : Prepared exampleTalkers exampleRunner ∧ Utf8Comments exampleTalkers ∧ NamesOK exampleEncodings ∧
    FloatsOK exampleFloats exampleIsFloat ∧ exampleIsFloat exampleRunner.komi ∧ exampleRunner.handicapStones = some [(2, 2), (6, 6)] ∧
    exampleFile = some (.ok (("(;FF[4]AB[cg][gc]AP[gomill:0.8]CA[UTF-8]DT[2012-01-01]GM[1]HA[2]KM[6.5]RE[W+R]SZ[9];" ++
      "C[[tengen\\]\n\nfinal message from b: <<<\nbye\n>>>]W[ee])\n").toList)) := by
  refine ⟨.handicap 2 false (.prepare (.init _ _ _ _)), ?_, ?_, exampleFloats_ok, Or.inr (Or.inl rfl), by decide +kernel, by decide +kernel⟩
  · intro c env s h
    cases h
    cases c <;> decide +kernel
  · exact exampleNames

end Gomill.Sgf
