import Verif.Spec.Scripts
import Verif.Props.GtpStateEngine
import Verif.Props.SgfRunner
import Verif.Props.SgfInfo
import Verif.Props.ControlFile
import Verif.Props.ResultsApi
/-
C99: the example scripts.
-/
namespace Gomill.Scripts
open Py Go Gtp Spec
open Gomill.Gtp.Spec (movesBefore)

/-! ## show_sgf -/

theorem showMoves_replay (l : List (Colour × Option Pt)) : ∀ (b : Board) (ko : Option Pt) (pl : Option Colour),
    (∀ x, replayK b ko pl (l.map (fun p => ({ colour := p.1, move := p.2 } : HistMove))) = .ok x → showMoves b l = .ok x.1) ∧
    (replayK b ko pl (l.map (fun p => ({ colour := p.1, move := p.2 } : HistMove))) = .error .valueError → showMoves b l = .error (.standard "illegal move in sgf file".toList)) := by
  induction l with
  | nil =>
    intro b ko pl
    refine ⟨fun x h => ?_, fun h => nomatch h⟩
    cases h; rfl
  | cons m l ih =>
    intro b ko pl
    obtain ⟨c, m⟩ := m
    cases m with
    | none => exact ih b ko pl
    | some p =>
      obtain ⟨row, col⟩ := p
      simp only [List.map_cons, replayK, showMoves]
      cases hp : b.play row col c with
      | error e =>
        refine ⟨fun x h => (nomatch h), fun h => ?_⟩
        cases h; rfl
      | ok r => exact ih r.2 _ _

theorem before_eq (mn : Option Int) (plays : List Mv) : playsBefore mn plays = movesBefore mn plays := by
  cases mn with
  | none => rfl
  | some k =>
    unfold playsBefore movesBefore
    simp only
    rw [show (max 0 (k - 1)).toNat = (k - 1).toNat by omega]

theorem mvs_map (l : List Mv) : mvs (l.map (fun p => ({ colour := p.1, move := p.2 } : HistMove))) = l := by
  unfold mvs; rw [List.map_map]; conv => rhs; rw [← List.map_id l]
  rfl

theorem setup_total {codec : Str → Bool} {text : Str} {g : Sgf.SgfGame} (hg : Sgf.SgfGame.fromString codec text = .ok g) {e : Exc}
    (h : Sgf.getSetupAndMoves g.size g.tree.mainSequence = .error e) : e = .valueError := by
  by_cases h2 : 2 ≤ g.size
  · rcases fromString_parsed (codec := codec) (t := text) with ⟨g', hg', hp⟩ | hg'
    · rw [hg] at hg'
      injection hg' with hg'
      subst hg'
      exact setup_error h2 g.tree hp h
    · rw [hg] at hg'; exact nomatch hg'
  · unfold Sgf.getSetupAndMoves at h
    have hi : Board.init g.size.toNat = .error .valueError := by
      unfold Board.init
      rw [if_pos (by omega)]
    simp only [hi, bind, Except.bind] at h
    cases h; rfl

/-- C99: what show_sgf does with every file: the position after the moves before the given one, if the file loads, its setup and moves are usable, and the moves
are legal; otherwise a message (and nothing printed). -/
theorem C99_show (codec : Str → Bool) (text : Str) (mn : Option Int) :
    (∀ game b plays, Sgf.SgfGame.fromString codec text = .ok game → Sgf.getSetupAndMoves game.size game.tree.mainSequence = .ok (b, plays) →
      (AllLegal game.size.toNat b.pos (movesBefore mn plays) → game.size ≤ 25 →
        ∃ out, showSgf codec text mn = .ok out ∧ IsShown game.size.toNat (replay game.size.toNat b.pos (movesBefore mn plays)) out) ∧
      (AllLegal game.size.toNat b.pos (movesBefore mn plays) → 25 < game.size → showSgf codec text mn = .error (.other .indexError)) ∧
      (¬ AllLegal game.size.toNat b.pos (movesBefore mn plays) → showSgf codec text mn = .error (.standard "illegal move in sgf file".toList))) ∧
    (∀ game, Sgf.SgfGame.fromString codec text = .ok game → (∀ x, Sgf.getSetupAndMoves game.size game.tree.mainSequence ≠ .ok x) →
      showSgf codec text mn = .error .setup) ∧
    ((∀ game, Sgf.SgfGame.fromString codec text ≠ .ok game) → showSgf codec text mn = .error (.standard "bad sgf file".toList)) := by
  refine ⟨?_, ?_, ?_⟩
  · intro game b plays hg hs
    obtain ⟨hb, hpl⟩ := setupAndMoves_spec hs
    unfold showSgf
    simp only [hg, hs, before_eq]
    have hon : ∀ m ∈ movesBefore mn plays, ∀ p, m.2 = some p → OnBoard game.size.toNat p := by
      intro m hm
      refine hpl m ?_
      unfold movesBefore at hm
      cases mn with
      | none => exact hm
      | some k => exact List.mem_of_mem_take hm
    have hmv := mvs_map (movesBefore mn plays)
    have hrep := showMoves_replay (movesBefore mn plays) b none none
    generalize hL : (movesBefore mn plays).map (fun p => ({ colour := p.1, move := p.2 } : HistMove)) = L at hmv hrep
    have key : AllLegal game.size.toNat b.pos (movesBefore mn plays) → ∃ b', showMoves b (movesBefore mn plays) = .ok b' ∧
        ReachableBoard game.size.toNat b' ∧ b'.pos = replay game.size.toNat b.pos (movesBefore mn plays) := by
      intro hl
      rw [← hmv] at hl
      obtain ⟨⟨b', ko, pl⟩, hx⟩ := replayK_ok hb L hl
      obtain ⟨h1, h2, _⟩ := replayK_rules hb L _ _ _ hx
      exact ⟨b', hrep.1 _ hx, h1, by rw [h2, hmv]⟩
    refine ⟨?_, ?_, ?_⟩
    · intro hl h25
      obtain ⟨b', h1, h2, h3⟩ := key hl
      obtain ⟨t, ht, _⟩ := C12_diagram_round_trip h2 (by omega)
      rw [h1]
      simp only [ht]
      exact ⟨_, rfl, b', t, h2, h3, ht, by rw [List.append_assoc]; rfl⟩
    · intro hl h25
      obtain ⟨b', h1, h2, h3⟩ := key hl
      rw [h1]
      simp only [C12_render_too_big h2 (by omega)]
    · intro hl
      have hr : replayK b none none L = .error .valueError := by
        rcases hr : replayK b none none L with e | ⟨b', ko, pl⟩
        · rw [replayK_error hb L none none ?_ hr]
          intro m hm p hp
          rw [← hL] at hm
          obtain ⟨x, hx, rfl⟩ := List.mem_map.1 hm
          exact hon x hx p hp
        · refine absurd ?_ hl
          have := (replayK_rules hb L _ _ _ hr).2.2.1
          rwa [hmv] at this
      rw [hrep.2 hr]
  · intro game hg hs
    unfold showSgf
    rw [hg]
    simp only
    cases h : Sgf.getSetupAndMoves game.size game.tree.mainSequence with
    | ok x => exact absurd h (hs x)
    | error e => rw [setup_total hg h]
  · intro hg
    rcases fromString_parsed (codec := codec) (t := text) with ⟨g', hg', hp⟩ | hg'
    · exact absurd hg' (hg g')
    · unfold showSgf
      rw [hg']

theorem strip_append (t : Str) {w : Str} (hw : ∀ c ∈ w, isSpace c = true) : strip (t ++ w) = strip t := by
  have hr : ∀ a : Str, rstrip (a ++ w) = rstrip a := by
    intro a
    unfold rstrip
    rw [List.reverse_append, List.dropWhile_append_of_pos (by simpa using hw)]
  unfold strip lstrip
  rw [List.dropWhile_append]
  split
  · rename_i h
    rw [List.isEmpty_iff] at h
    rw [h, List.dropWhile_eq_nil_iff.2 (by simpa using hw)]
  · exact hr _

/-- C99: what show_sgf prints can be read back. -/
theorem C99_show_reads {n : Nat} {pos : Position} {out : Str} (h : IsShown n pos out) :
    ∃ b, Ascii.interpretDiagram out n none = .ok b ∧ b.pos = pos := by
  obtain ⟨b, t, hb, hp, ht, rfl⟩ := h
  have h25 : n ≤ 25 := by
    by_contra h
    rw [C12_render_too_big hb (by omega)] at ht
    exact nomatch ht
  obtain ⟨t', ht', hround, _⟩ := C12_diagram_round_trip hb h25
  rw [ht] at ht'
  injection ht' with ht'
  subst ht'
  refine ⟨b, ?_, hp⟩
  have hst : strip (t ++ ['\n', '\n']) = strip t := strip_append t (by decide)
  rw [← hround]
  unfold Ascii.interpretDiagram Ascii.interpretOn
  rw [hst]

/-- C99: when a GTP engine with a Gtp_state has loaded a file (loadsgf, with or without a move number), show_sgf given the same file and move number prints
the same diagram as showboard. -/
theorem C99_show_loadsgf {acceptable : List Int} {s s' : GS} (h : Lived acceptable s) {env : Env} {path text : Str} {rest : List Str} {r : Option Str}
    (hs : s.step env .loadsgf (path :: rest) = (s', .value r)) (hf : env.file path = some text) {mn : Option Int} (hmn : SameNumber rest mn) (args : List Str) :
    (s'.boardSize ≤ 25 → ∃ d, showSgf env.codec text mn = .ok (d ++ ['\n', '\n']) ∧ s'.showboard args = .value (some (['\n'] ++ d ++ ['\n']))) ∧
    (25 < s'.boardSize → showSgf env.codec text mn = .error (.other .indexError) ∧ ∃ tb, s'.showboard args = .exception tb) := by
  obtain ⟨n, hi⟩ := h.inv
  have hs' : s.loadsgf env (path :: rest) = (s', .value r) := hs
  rcases loadsgf_spec hi hs' with ⟨hx, _⟩ | ⟨_, _, path', rest', text', mn', game, h1, h2, h3, h4, h5, _, _, plays, h6, h7⟩
  · exact absurd hx failed_value
  · injection h1 with e1 e2
    subst e1 e2
    rw [hf] at h2
    injection h2 with h2
    subst h2
    have hL : Lived acceptable s' := .step h hs (fun x => absurd x failed_value)
    obtain ⟨m, hm, _, hbase, hboard, ko, pl, hrep⟩ := C94_board hL
    obtain ⟨_, hpos, hleg, _⟩ := replayK_rules hbase s'.history _ _ _ hrep
    have hmoves : mvs s'.history = movesBefore mn plays := by
      have hv : mvs s'.history = movesBefore mn' plays := h7
      rw [hv]
      rcases hmn with ⟨r1, r2⟩ | ⟨a, q, k, r1, r2, r3, r4⟩
      · rcases h4 with ⟨_, r3⟩ | ⟨_, _, _, r3, _⟩
        · rw [r2, r3]
        · rw [r1] at r3; exact nomatch r3
      · rcases h4 with ⟨r5, _⟩ | ⟨a', q', k', r5, r6, r7⟩
        · rw [r1] at r5; exact nomatch r5
        · rw [r1] at r5
          injection r5 with r5 r8
          subst r5
          obtain ⟨j, hj, hc⟩ := (C62_int a k').1 r6
          rw [r2] at hj
          injection hj with hj
          subst hj
          rw [r4, r7]
          unfold movesBefore
          simp only
          congr 1
          omega
    have hsz : game.size.toNat = m := by omega
    rw [hmoves] at hpos hleg
    obtain ⟨g1, g2, _⟩ := (C99_show env.codec text mn).1 game s'.base plays h3 h6
    rw [hsz] at g1 g2
    constructor
    · intro h25
      obtain ⟨out, ho, b, t, hb, hp, ht, rfl⟩ := g1 hleg (by omega)
      have hr : Ascii.renderBoard s'.board = .ok t := by
        rw [rendered_ok hb (by omega)] at ht
        rw [rendered_ok hboard (by omega), ← ht, hpos, hp]
      refine ⟨t, ho, ?_⟩
      unfold GS.showboard
      rw [hr]
      rfl
    · intro h25
      refine ⟨g2 hleg (by omega), [], ?_⟩
      unfold GS.showboard
      rw [C12_render_too_big hboard (by omega)]

/-- C99: and if show_sgf can show a position from a file which has an acceptable size and a komi which can be read, then loadsgf succeeds. -/
theorem C99_show_loadsgf_ok {acceptable : List Int} {s : GS} (h : Lived acceptable s) {env : Env} {path text : Str} {rest : List Str} {mn : Option Int}
    (hmn : SameNumber rest mn) (hf : env.file path = some text) {out : Str} (ho : showSgf env.codec text mn = .ok out) {game : Sgf.SgfGame}
    (hg : Sgf.SgfGame.fromString env.codec text = .ok game) (ha : game.size ∈ acceptable) {komi : Rat} (hk : game.getKomi env.readFloat = .ok komi) :
    ∃ s' r, s.step env .loadsgf (path :: rest) = (s', .value r) := by
  obtain ⟨n, hi⟩ := h.inv
  obtain ⟨c1, c2, _⟩ := C99_show env.codec text mn
  have hset : ∃ b plays, Sgf.getSetupAndMoves game.size game.tree.mainSequence = .ok (b, plays) := by
    by_contra hx
    rw [c2 game hg (fun x hx' => hx ⟨_, _, hx'⟩)] at ho
    exact nomatch ho
  obtain ⟨b, plays, hset⟩ := hset
  have hleg : AllLegal game.size.toNat b.pos (movesBefore mn plays) := by
    by_contra hx
    rw [(c1 game b plays hg hset).2.2 hx] at ho
    exact nomatch ho
  have hsucc : ∃ mn', Gtp.Spec.IsMoveNumber rest mn' ∧ movesBefore mn' plays = movesBefore mn plays := by
    rcases hmn with ⟨rfl, rfl⟩ | ⟨a, q, k, rfl, r2, r3, rfl⟩
    · exact ⟨none, .inl ⟨rfl, rfl⟩, rfl⟩
    · refine ⟨some (max (-1) k), .inr ⟨a, q, _, rfl, ⟨k, r2, by omega⟩, rfl⟩, ?_⟩
      unfold movesBefore
      simp only
      congr 1
      omega
  obtain ⟨mn', hm1, hm2⟩ := hsucc
  have ha' : game.size ∈ s.acceptable := by rw [h.sizes.1]; exact ha
  obtain ⟨r, hr⟩ := (C94_outcome h hi.size env .loadsgf (path :: rest)).1.1 (.loadsgf hm1 hf hg ha' hk hset (by rw [hm2]; exact hleg))
  exact ⟨_, r, Prod.ext rfl hr⟩

/-! ## split_sgf_collection -/

theorem get_comment (size : Int) (C : Sgf.Codec) (F : Sgf.Floats) (m : Sgf.PropMap) :
    Sgf.nodeGet (Sgf.Presenter.new size C F) m ['C'] = Sgf.nodeGet (Sgf.Presenter.new 19 C Sgf.exampleFloats) m ['C'] := by
  unfold Sgf.nodeGet
  cases m.item ['C'] with
  | error e => rfl
  | ok v => rfl

theorem set_comment (size : Int) (C : Sgf.Codec) (F : Sgf.Floats) (m : Sgf.PropMap) (v : Str) :
    Sgf.nodeSet (Sgf.Presenter.new size C F) m ['C'] (.str v) = Sgf.nodeSet (Sgf.Presenter.new 19 C Sgf.exampleFloats) m ['C'] (.str v) := by
  rfl

theorem add_comment (size : Int) (C : Sgf.Codec) (F : Sgf.Floats) (m : Sgf.PropMap) (v : Str) :
    Sgf.addCommentText (Sgf.Presenter.new size C F) m v = Sgf.addCommentText (Sgf.Presenter.new 19 C Sgf.exampleFloats) m v := by
  unfold Sgf.addCommentText
  rw [get_comment size C F m]
  simp only [set_comment size C F]

theorem comment_valid {C : Sgf.Codec} (hC : Sgf.Transcodable C) {size : Int} {F : Sgf.Floats} {m : Sgf.PropMap} {t : Str}
    (h : Sgf.nodeGet (Sgf.Presenter.new size C F) m ['C'] = .ok (.str t)) : Sgf.utf8Valid t = true := by
  have hT := Sgf.C50_standard size C F
  unfold Sgf.nodeGet Sgf.Presenter.interpret at h
  cases hi : m.item ['C'] with
  | error e => rw [hi] at h; cases h
  | ok raws =>
    rw [hi] at h
    simp only [bind, Except.bind, Sgf.effectiveType_of hT.c, Sgf.Presenter.interpretAs] at h
    cases hs : Sgf.singleValue raws with
    | error e => rw [hs] at h; cases h
    | ok s =>
      rw [hs] at h
      simp only [Sgf.interpretText, Sgf.Presenter.new] at h
      cases hd : C.dec (Sgf.textValue s) with
      | none => rw [hd] at h; cases h
      | some u =>
        rw [hd] at h
        cases h
        exact hC.valid _ _ hd

theorem comment_iff {C : Sgf.Codec} (hC : Sgf.Transcodable C) (size : Int) (F : Sgf.Floats) (m : Sgf.PropMap) {text : Str} (hv : Sgf.utf8Valid text = true) :
    ((Sgf.addCommentText (Sgf.Presenter.new size C F) m text).2 = .ok () ↔
      ∃ full, FullComment (Sgf.Presenter.new size C F) m text full ∧ Sgf.Encodable (Sgf.Presenter.new size C F) full) ∧
    ∀ full, FullComment (Sgf.Presenter.new size C F) m text full → Sgf.Encodable (Sgf.Presenter.new size C F) full →
      ∃ c, Sgf.nodeGet (Sgf.Presenter.new size C F) (Sgf.addCommentText (Sgf.Presenter.new size C F) m text).1 ['C'] = .ok (.str c) ∧ Sgf.Normalised false full c := by
  have hF := Sgf.exampleFloats_ok
  have h1 : (1 : Int) ≤ (Sgf.Presenter.new 19 C Sgf.exampleFloats).size := by show (1 : Int) ≤ 19; decide
  have h2 : (Sgf.Presenter.new 19 C Sgf.exampleFloats).size ≤ 25 := by show (19 : Int) ≤ 25; decide
  have hT := Sgf.C50_standard 19 C Sgf.exampleFloats
  have hc := Sgf.C51_comment (Sgf.Presenter.new 19 C Sgf.exampleFloats) hT h1 h2 hC.toAsciiCompatible _ hF m text hv
  have key : ∀ full, FullComment (Sgf.Presenter.new size C F) m text full → Sgf.Encodable (Sgf.Presenter.new size C F) full →
      (Sgf.addCommentText (Sgf.Presenter.new size C F) m text).2 = .ok () ∧
      ∃ c, Sgf.nodeGet (Sgf.Presenter.new size C F) (Sgf.addCommentText (Sgf.Presenter.new size C F) m text).1 ['C'] = .ok (.str c) ∧ Sgf.Normalised false full c := by
    intro full hf he
    rw [get_comment, add_comment]
    rcases hf with ⟨e1, rfl⟩ | ⟨old, e1, rfl⟩
    · exact hc.1 e1 he
    · have e2 := comment_valid hC e1
      rw [get_comment] at e1
      exact hc.2 old e1 e2 he
  refine ⟨⟨fun h => ?_, fun ⟨full, a, b⟩ => (key full a b).1⟩, fun full a b => (key full a b).2⟩
  have henc : ∀ x, (Sgf.nodeSet (Sgf.Presenter.new size C F) m ['C'] (.str x)).2 = .ok () → Sgf.Encodable (Sgf.Presenter.new size C F) x := by
    intro x hx
    rw [set_comment, (Sgf.C50_set_iff _ h1 h2 m _ _).1] at hx
    obtain ⟨_, t, ht, hst, _⟩ := hx
    rw [Sgf.effectiveType_of hT.c] at ht
    cases ht
    exact hst
  unfold Sgf.addCommentText at h
  by_cases hh : m.has ['C'] = true
  · rw [if_pos hh] at h
    cases hg : Sgf.nodeGet (Sgf.Presenter.new size C F) m ['C'] with
    | error e => rw [hg] at h; cases h
    | ok v =>
      rw [hg] at h
      cases v with
      | str old => exact ⟨_, .inr ⟨old, hg, rfl⟩, henc _ h⟩
      | _ => cases h
  · rw [if_neg hh] at h
    refine ⟨text, .inl ⟨?_, rfl⟩, henc _ h⟩
    rw [Sgf.has_iff] at hh
    cases hl : Sgf.lookup m ['C'] with
    | none => rfl
    | some v => exact absurd ⟨v, hl⟩ hh

theorem nodeGet_same {P : Sgf.Presenter} {m m' : Sgf.PropMap} {k : Str} (h : Sgf.lookup m k = Sgf.lookup m' k) : Sgf.nodeGet P m k = Sgf.nodeGet P m' k := by
  unfold Sgf.nodeGet Sgf.PropMap.item
  rw [Sgf.find_eq_lookup, Sgf.find_eq_lookup, h]

theorem full_same {P : Sgf.Presenter} {m m' : Sgf.PropMap} (h : Sgf.lookup m ['C'] = Sgf.lookup m' ['C']) {text full : Str} :
    FullComment P m text full ↔ FullComment P m' text full := by
  unfold FullComment
  rw [h, nodeGet_same h]

theorem full_unique {P : Sgf.Presenter} {m : Sgf.PropMap} {text a b : Str} (ha : FullComment P m text a) (hb : FullComment P m text b) : a = b := by
  rcases ha with ⟨h1, rfl⟩ | ⟨o, h1, rfl⟩ <;> rcases hb with ⟨h2, rfl⟩ | ⟨o', h2, rfl⟩
  · rfl
  · unfold Sgf.nodeGet Sgf.PropMap.item at h2
    rw [Sgf.find_eq_lookup, h1] at h2
    cases h2
  · unfold Sgf.nodeGet Sgf.PropMap.item at h1
    rw [Sgf.find_eq_lookup, h2] at h1
    cases h1
  · rw [h1] at h2
    cases h2
    rfl

theorem comment_utf8 {basename : Str} (hb : Sgf.utf8Valid basename = true) (i : Nat) : Sgf.utf8Valid (splitComment basename i) = true := by
  have key : ∀ (a b : Str), Sgf.utf8Valid a = true → Sgf.utf8Valid b = true → Sgf.utf8Valid (a ++ b) = true :=
    fun a b ha hb => Sgf.utf8Valid_concat _ a b (Nat.le_refl _) ha hb
  unfold splitComment
  exact key _ _ (key _ _ (key _ _ (key _ _ (by decide +kernel) hb) (by decide +kernel)) (Sgf.utf8Valid_strInt _)) (by decide +kernel)

/-- The script makes this text for game `i` (starting from 0) of the collection. -/
def SplitsTo (E : Sgf.Encodings) (F : Sgf.Floats) (basename : Str) (i : Nat) (t : Sgf.CTree) (out : Str) : Prop :=
  ∃ L g, splitGame E F basename i t = .ok (L, g) ∧ L.serialise E g (some 79) = .ok out

theorem nodes_head (s : List Sgf.PropMap) (ch : List Sgf.CTree) :
    ∃ ts, ∀ r' : Sgf.PropMap, (Sgf.CTree.mk (r' :: s) ch).coarse.nodes = [.mk r' ts] := by
  exact ⟨Sgf.chain s (Sgf.nodesL (Sgf.CTree.coarse.coarseList ch)), fun r' => by rw [Sgf.CTree.coarse, Sgf.Coarse.nodes]; rfl⟩

theorem source_of {E : Sgf.Encodings} (hN : Sgf.NamesOK E) {root : Sgf.PropMap} {n : Str} (hd : Sgf.Declares E root n) :
    ∃ e, Sgf.SourceEncoding root none e ∧ E.normalise e = some n := by
  unfold Sgf.Declares at hd
  unfold Sgf.SourceEncoding
  simp only
  cases hl : Sgf.lookup root ['C', 'A'] with
  | none => rw [hl] at hd; exact ⟨_, rfl, by rw [hd]; exact hN.latin1⟩
  | some vs =>
    rw [hl] at hd
    obtain ⟨raw, rfl, h1, _⟩ := hd
    exact ⟨raw, ⟨[], rfl⟩, h1⟩

theorem source_unique {E : Sgf.Encodings} (hN : Sgf.NamesOK E) {root : Sgf.PropMap} {n : Str} (hd : Sgf.Declares E root n) (e n' : Str)
    (h1 : Sgf.SourceEncoding root none e) (h2 : E.normalise e = some n') : n' = n := by
  obtain ⟨e', h3, h4⟩ := source_of hN hd
  have : e = e' := by
    unfold Sgf.SourceEncoding at h1 h3
    simp only at h1 h3
    cases hl : Sgf.lookup root ['C', 'A'] with
    | none => rw [hl] at h1 h3; rw [h1, h3]
    | some vs =>
      rw [hl] at h1 h3
      obtain ⟨_, h1⟩ := h1
      obtain ⟨_, h3⟩ := h3
      rw [h1] at h3
      injection h3
  rw [this, h4] at h2
  exact (Option.some.inj h2).symm

theorem size_unique {root : Sgf.PropMap} {a b : Int} (h1 : Sgf.EffectiveSize root a) (h2 : Sgf.EffectiveSize root b) : a = b := by
  unfold Sgf.EffectiveSize at h1 h2
  cases hl : Sgf.lookup root ['S', 'Z'] with
  | none => rw [hl] at h1 h2; rw [h1, h2]
  | some vs =>
    rw [hl] at h1 h2
    cases vs with
    | nil => exact h1.elim
    | cons v vs => simp only at h1 h2; rw [h1] at h2; injection h2

/-- Loading a game of the collection, and adding a comment to its root. -/
def commented (E : Sgf.Encodings) (F : Sgf.Floats) (text : Str) (t : Sgf.CTree) : Except Exc (Sgf.Lib × Sgf.GameRec) :=
  match Sgf.Lib.load E F ⟨[], []⟩ t none with
  | .error e => .error e
  | .ok L => match L.games with
    | [] => .error .indexError
    | g :: _ => match L.update g g.root (fun P m => Sgf.addCommentText P m text) with
      | .error e => .error e
      | .ok L => .ok (L, g)

theorem commented_ok {E : Sgf.Encodings} {F : Sgf.Floats} {text : Str} {t : Sgf.CTree} {L1 : Sgf.Lib} {g : Sgf.GameRec} :
    commented E F text t = .ok (L1, g) ↔ ∃ L gs, Sgf.Lib.load E F ⟨[], []⟩ t none = .ok L ∧ L.games = g :: gs ∧
      L.update g g.root (fun P m => Sgf.addCommentText P m text) = .ok L1 := by
  unfold commented
  cases hL : Sgf.Lib.load E F ⟨[], []⟩ t none with
  | error e => exact ⟨(fun h => nomatch h), fun ⟨_, _, h, _⟩ => nomatch h⟩
  | ok L =>
    simp only
    cases hgs : L.games with
    | nil =>
      refine ⟨(fun h => nomatch h), fun ⟨L', gs, h, h', _⟩ => ?_⟩
      cases h
      rw [hgs] at h'
      exact nomatch h'
    | cons g' gs =>
      simp only
      cases hu : L.update g' g'.root (fun P m => Sgf.addCommentText P m text) with
      | error e =>
        refine ⟨(fun h => nomatch h), fun ⟨L', gs', h, h', h''⟩ => ?_⟩
        cases h
        rw [hgs] at h'
        cases h'
        rw [hu] at h''
        exact nomatch h''
      | ok L2 =>
        constructor
        · intro h
          cases h
          exact ⟨L, gs, rfl, hgs, hu⟩
        · rintro ⟨L', gs', h, h', h''⟩
          cases h
          rw [hgs] at h'
          cases h'
          rw [hu] at h''
          cases h''
          rfl

theorem rep_props {L : Sgf.Lib} {o : Nat} {g : Sgf.GameRec} {p : Sgf.PropMap} {ts : List (Sgf.NTree Sgf.PropMap)} (h : Sgf.HasTree L o g (.mk p ts)) :
    L.heap.props g.root = p := by
  obtain ⟨ids', hr', _⟩ := h
  obtain ⟨ts', ht'⟩ := Sgf.rep_root hr'
  injection ht' with ht'
  exact ht'.symm

theorem split_refused {E : Sgf.Encodings} {F : Sgf.Floats} {L : Sgf.Lib} {g : Sgf.GameRec} {size : Int} {n : Str}
    (hC : Sgf.Transcodable (E.codec n)) {r0 root : Sgf.PropMap} {text : Str} (hcm : Sgf.utf8Valid text = true)
    (hp : g.presenter = Sgf.Presenter.new size (E.codec n) F) (hgr : L.heap.props g.root = r0) (hsame : ∀ k, Sgf.lookup r0 k = Sgf.lookup root k)
    {L1 : Sgf.Lib} (hu : L.update g g.root (fun P m => Sgf.addCommentText P m text) = .ok L1) :
    ∃ full, FullComment (Sgf.Presenter.new size (E.codec n) F) root text full ∧ Sgf.Encodable (Sgf.Presenter.new size (E.codec n) F) full := by
  obtain ⟨h, _, _⟩ := Sgf.update_ok hu
  rw [hp, hgr] at h
  obtain ⟨c1, _⟩ := comment_iff hC size F r0 hcm
  obtain ⟨full, h1, h2⟩ := c1.1 h
  exact ⟨full, (full_same (hsame _)).1 h1, h2⟩

theorem split_made {E : Sgf.Encodings} {F : Sgf.Floats} (hF : ∀ q, ∀ c ∈ F.repr q, c ≠ ']' ∧ c ≠ '\\') (hN : Sgf.NamesOK E) {L : Sgf.Lib} {g : Sgf.GameRec} {size : Int}
    {root r0 : Sgf.PropMap} {s : List Sgf.PropMap} {ch : List Sgf.CTree} {n : Str} (hd : Sgf.Declares E root n)
    (hC : Sgf.Transcodable (E.codec n)) {text : Str} (hcm : Sgf.utf8Valid text = true) (hsess : Sgf.Session E F L) (hg0 : L.games[0]? = some g)
    (henc : g.encoding = n) (hp : g.presenter = Sgf.Presenter.new size (E.codec n) F) (hsame : ∀ k, Sgf.lookup r0 k = Sgf.lookup root k)
    {ts : List (Sgf.NTree Sgf.PropMap)} (hts : ∀ r, (Sgf.CTree.mk (r :: s) ch).coarse.nodes = [.mk r ts]) (htree : Sgf.HasTree L 0 g (.mk r0 ts))
    {full : Str} (h1 : FullComment (Sgf.Presenter.new size (E.codec n) F) root text full) (h2 : Sgf.Encodable (Sgf.Presenter.new size (E.codec n) F) full) :
    ∃ L1 out, L.update g g.root (fun P m => Sgf.addCommentText P m text) = .ok L1 ∧ L1.serialise E g (some 79) = .ok out ∧ ReadsAs E F root s ch size n full out := by
  have hgr : L.heap.props g.root = r0 := rep_props htree
  obtain ⟨c1, c2⟩ := comment_iff hC size F r0 hcm
  have h1' := (full_same (hsame ['C'])).2 h1
  have hok := c1.2 ⟨full, h1', h2⟩
  obtain ⟨c, hc1, hc2⟩ := c2 full h1' h2
  have hup := Sgf.update_eq (L := L) (g := g) (n := g.root) (f := fun P m => Sgf.addCommentText P m text) (by
    rw [hp, hgr]; exact hok)
  rw [hp, hgr] at hup
  generalize hm1 : (Sgf.addCommentText (Sgf.Presenter.new size (E.codec n) F) r0 text).1 = r1 at hup hc1
  obtain ⟨L1, hL1⟩ : ∃ L1, L1 = ({ L with heap := L.heap.modify g.root (fun r => { r with props := r1 }) } : Sgf.Lib) := ⟨_, rfl⟩
  rw [← hL1] at hup
  obtain ⟨ids, hrep, hnd⟩ := htree
  rw [Sgf.Rep] at hrep
  obtain ⟨r, rest, rfl, q1, q2, q3, q4, q5⟩ := hrep
  have hroot : g.root < L.heap.length := (List.getElem?_eq_some_iff.1 q1).1
  have hs1 : Sgf.Session E F L1 := Sgf.update_session hsess hg0 hroot (by rw [Sgf.owner_of_get q1]; exact q4)
    (.addCommentText text) (fun _ _ => rfl) hup
  have hg1 : L1.games[0]? = some g := by rw [hL1]; exact hg0
  have htree : Sgf.HasTree L1 0 g (.mk r1 ts) := by
    refine ⟨g.root :: rest, ?_, hnd⟩
    rw [Sgf.Rep]
    refine ⟨{ r with props := r1 }, rest, rfl, ?_, rfl, q3, q4, ?_⟩
    · rw [hL1]
      show (L.heap.modify g.root _)[g.root]? = _
      rw [List.getElem?_modify, q1]
      simp
    · refine Sgf.repL_frame ?_ q5
      intro j hj
      have hne : g.root ≠ j := by
        rintro rfl
        exact (List.nodup_cons.1 hnd).1 hj
      rw [hL1]
      show (L.heap.modify g.root _)[j]? = _
      rw [List.getElem?_modify]
      simp only [if_neg hne]
      simp
  have hprops : L1.heap.props g.root = r1 := rep_props htree
  have hframe : ∀ k, k ≠ ['C'] → Sgf.lookup r1 k = Sgf.lookup root k := by
    intro k hk
    rw [← hm1, ← hsame k]
    exact Sgf.C51_frame _ r0 (.addCommentText text) k hk
  have hd1 : Sgf.Declares E (L1.heap.props g.root) g.encoding := by
    rw [hprops, henc]
    unfold Sgf.Declares
    rw [hframe _ (by decide)]
    exact hd
  obtain ⟨t, out, k1, k2, k3⟩ := Sgf.C52_round_trip hF hN hs1 hg1 (by rw [hp]; rfl) hd1 (by rw [henc]; exact hC.toAsciiCompatible) (some 79)
  have ht : t = .mk r1 ts := by
    obtain ⟨_, a, _⟩ := k1
    obtain ⟨_, b, _⟩ := htree
    exact Sgf.rep_unique a b
  subst ht
  refine ⟨L1, out, hup, k2, ?_⟩
  intro M
  obtain ⟨M', g', t', e1, e2, e3, e4, e5, e6, _⟩ := k3 M
  have hpr : g'.presenter = Sgf.Presenter.new size (E.codec n) F := by rw [e4, henc, hp]; rfl
  exact ⟨M', g', r1, _, t', c, e1, e2, by rw [e3, henc], hpr, hts r1, e5, e6, hframe, by rw [hpr]; exact hc1, hc2⟩

theorem split_core {E : Sgf.Encodings} {F : Sgf.Floats} (hF : ∀ q, ∀ c ∈ F.repr q, c ≠ ']' ∧ c ≠ '\\') (hN : Sgf.NamesOK E)
    {root : Sgf.PropMap} {s : List Sgf.PropMap} {ch : List Sgf.CTree} (hv : Sgf.ValidTree (.mk (root :: s) ch)) {n : Str} (hd : Sgf.Declares E root n)
    (hC : Sgf.Transcodable (E.codec n)) {text : Str} (hcm : Sgf.utf8Valid text = true) {L : Sgf.Lib} (hL : Sgf.Lib.load E F ⟨[], []⟩ (.mk (root :: s) ch) none = .ok L) :
    ∃ size, Sgf.EffectiveSize root size ∧
      ((∃ L1 g, commented E F text (.mk (root :: s) ch) = .ok (L1, g)) →
        ∃ full, FullComment (Sgf.Presenter.new size (E.codec n) F) root text full ∧ Sgf.Encodable (Sgf.Presenter.new size (E.codec n) F) full) ∧
      ∀ full, FullComment (Sgf.Presenter.new size (E.codec n) F) root text full → Sgf.Encodable (Sgf.Presenter.new size (E.codec n) F) full →
        ∃ L1 g out, commented E F text (.mk (root :: s) ch) = .ok (L1, g) ∧ L1.serialise E g (some 79) = .ok out ∧ ReadsAs E F root s ch size n full out := by
  obtain ⟨_, l2⟩ := Sgf.C52_load (E := E) (F := F) hN rfl hv none ⟨[], []⟩
  obtain ⟨g, size, e, n', r0, u, g1, g2, g3, g4, g5, g6, g7, g8, g9, _⟩ := l2 L hL
  have hn' := source_unique hN hd e n' g3 g4
  subst hn'
  rw [List.nil_append] at g1
  have hsame : ∀ k, Sgf.lookup r0 k = Sgf.lookup root k := by
    intro k
    rw [g7 k, if_neg (by simp)]
  have hsess : Sgf.Session E F L := .step .start (.load hv hL)
  have hg0 : L.games[0]? = some g := by rw [g1]; rfl
  obtain ⟨ts, hts⟩ := nodes_head s ch
  rw [hts r0] at g8
  have hu := List.singleton_inj.1 g8
  subst hu
  refine ⟨size, g2, ?_, ?_⟩
  · rintro ⟨L1, g', hsp⟩
    obtain ⟨L', gs, a1, a2, a3⟩ := commented_ok.1 hsp
    rw [hL] at a1
    injection a1 with a1
    subst a1
    rw [g1] at a2
    injection a2 with a2 _
    subst a2
    exact split_refused hC hcm g6 (rep_props g9) hsame a3
  · intro full h1 h2
    obtain ⟨L1, out, k1, k2, k3⟩ := split_made hF hN hd hC hcm hsess hg0 g5 g6 hsame hts g9 h1 h2
    exact ⟨L1, g, out, commented_ok.2 ⟨L, [], hL, g1, k1⟩, k2, k3⟩

/-- C99: a game is split from the collection just when it's one which can be loaded, whose root's comment (if there's one) can be read and, with the text
`Split from <file name> (game <number>)` added, encoded.  The file then reads back as the same game, apart from that comment. -/
theorem C99_split_game {E : Sgf.Encodings} {F : Sgf.Floats} (hF : ∀ q, ∀ c ∈ F.repr q, c ≠ ']' ∧ c ≠ '\\') (hN : Sgf.NamesOK E)
    {root : Sgf.PropMap} {s : List Sgf.PropMap} {ch : List Sgf.CTree} (hv : Sgf.ValidTree (.mk (root :: s) ch)) {n : Str} (hd : Sgf.Declares E root n)
    (hC : Sgf.Transcodable (E.codec n)) {basename : Str} (hb : Sgf.utf8Valid basename = true) (i : Nat) :
    ((∃ out, SplitsTo E F basename i (.mk (root :: s) ch) out) ↔
      ∃ size full, Sgf.EffectiveSize root size ∧ 1 ≤ size ∧ size ≤ 26 ∧
        FullComment (Sgf.Presenter.new size (E.codec n) F) root
          ("Split from ".toList ++ basename ++ " (game ".toList ++ strInt (i + 1) ++ ")".toList) full ∧
        Sgf.Encodable (Sgf.Presenter.new size (E.codec n) F) full) ∧
    ∀ out, SplitsTo E F basename i (.mk (root :: s) ch) out → ∀ size full, Sgf.EffectiveSize root size →
      FullComment (Sgf.Presenter.new size (E.codec n) F) root
          ("Split from ".toList ++ basename ++ " (game ".toList ++ strInt (i + 1) ++ ")".toList) full →
      ReadsAs E F root s ch size n full out := by
  have hcm := comment_utf8 hb i
  have hsg : ∀ t, splitGame E F basename i t = commented E F (splitComment basename i) t := fun _ => rfl
  have hcdef : "Split from ".toList ++ basename ++ " (game ".toList ++ strInt (i + 1) ++ ")".toList = splitComment basename i := rfl
  rw [hcdef]
  unfold SplitsTo
  simp only [hsg]
  clear hsg hcdef hb
  generalize splitComment basename i = text at hcm ⊢
  obtain ⟨l1, _⟩ := Sgf.C52_load (E := E) (F := F) hN rfl hv none ⟨[], []⟩
  have hload : ∀ L1 g, commented E F text (.mk (root :: s) ch) = .ok (L1, g) → ∃ L, Sgf.Lib.load E F ⟨[], []⟩ (.mk (root :: s) ch) none = .ok L :=
    fun L1 g h => (commented_ok.1 h).imp (fun L ⟨_, h, _⟩ => h)
  refine ⟨⟨?_, ?_⟩, ?_⟩
  · rintro ⟨out, L1, g, h1, _⟩
    obtain ⟨L, hL⟩ := hload _ _ h1
    obtain ⟨size, e, n', k1, k2, k3, _⟩ := l1.1 ⟨L, hL⟩
    obtain ⟨size', k4, k5, _⟩ := split_core hF hN hv hd hC hcm hL
    obtain ⟨full, k6, k7⟩ := k5 ⟨_, _, h1⟩
    have := size_unique k4 k1
    subst this
    exact ⟨size', full, k1, k2, k3, k6, k7⟩
  · rintro ⟨size, full, k1, k2, k3, k4, k5⟩
    obtain ⟨e, h1, h2⟩ := source_of hN hd
    obtain ⟨L, hL⟩ := l1.2 ⟨size, e, n, k1, k2, k3, h1, h2⟩
    obtain ⟨size', k6, _, k7⟩ := split_core hF hN hv hd hC hcm hL
    have := size_unique k6 k1
    subst this
    obtain ⟨L1, g, out, k8, k9, _⟩ := k7 full k4 k5
    exact ⟨out, L1, g, k8, k9⟩
  · rintro out ⟨L1, g, h1, h2⟩ size full k1 k4
    obtain ⟨L, hL⟩ := hload _ _ h1
    obtain ⟨size', k6, k5, k7⟩ := split_core hF hN hv hd hC hcm hL
    have := size_unique k6 k1
    subst this
    obtain ⟨full', k8, k9⟩ := k5 ⟨_, _, h1⟩
    have := full_unique k8 k4
    subst this
    obtain ⟨L1', g', out', k10, k11, k12⟩ := k7 full' k8 k9
    rw [h1] at k10
    injection k10 with k10
    injection k10 with k10 k10'
    subst k10 k10'
    rw [h2] at k11
    injection k11 with k11
    subst k11
    exact k12

theorem splitLoop_spec (E : Sgf.Encodings) (F : Sgf.Floats) (pathname : Str) (ts : List Sgf.CTree) : ∀ i : Nat, ∃ (outs : List Str) (k : Nat),
    outs.length = k ∧ k ≤ ts.length ∧
    (∀ j out, outs[j]? = some out → ∃ t, ts[j]? = some t ∧ SplitsTo E F (Conf.pathSplit pathname).2 (i + j) t out) ∧
    ((k = ts.length ∧ splitLoop E F pathname i ts = (outs.zipIdx.map (fun x => (splitPathname pathname (i + x.2), x.1)), none)) ∨
      ∃ t e, ts[k]? = some t ∧ (∀ out, ¬ SplitsTo E F (Conf.pathSplit pathname).2 (i + k) t out) ∧
        (splitLoop E F pathname i ts = (outs.zipIdx.map (fun x => (splitPathname pathname (i + x.2), x.1)), some e) ∨
          splitLoop E F pathname i ts =
            (outs.zipIdx.map (fun x => (splitPathname pathname (i + x.2), x.1)) ++ [(splitPathname pathname (i + k), [])], some e))) := by
  induction ts with
  | nil => exact fun i => ⟨[], 0, rfl, Nat.le_refl _, fun j out h => by simp at h, .inl ⟨rfl, rfl⟩⟩
  | cons t ts ih =>
    intro i
    unfold splitLoop
    cases hg : splitGame E F (Conf.pathSplit pathname).2 i t with
    | error e =>
      refine ⟨[], 0, rfl, Nat.zero_le _, fun j out h => by simp at h, .inr ⟨t, e, rfl, ?_, .inl rfl⟩⟩
      rintro out ⟨L, g, h, _⟩
      rw [Nat.add_zero, hg] at h
      exact nomatch h
    | ok x =>
      obtain ⟨L, g⟩ := x
      simp only
      cases hs : L.serialise E g (some 79) with
      | error e =>
        refine ⟨[], 0, rfl, Nat.zero_le _, fun j out h => by simp at h, .inr ⟨t, e, rfl, ?_, .inr rfl⟩⟩
        rintro out ⟨L', g', h, h'⟩
        rw [Nat.add_zero, hg] at h
        cases h
        rw [hs] at h'
        exact nomatch h'
      | ok s =>
        obtain ⟨outs, k, h1, h2, h3, h4⟩ := ih (i + 1)
        have hz : (s :: outs).zipIdx.map (fun x => (splitPathname pathname (i + x.2), x.1)) =
            (splitPathname pathname i, s) :: outs.zipIdx.map (fun x => (splitPathname pathname (i + 1 + x.2), x.1)) := by
          rw [List.zipIdx_cons, List.map_cons, Nat.add_zero, Nat.zero_add, List.zipIdx_succ, List.map_map]
          congr 2
          funext x
          simp only [Function.comp]
          congr 2
          omega
        refine ⟨s :: outs, k + 1, by rw [List.length_cons, h1], by rw [List.length_cons]; omega, ?_, ?_⟩
        · intro j out hj
          cases j with
          | zero =>
            rw [List.getElem?_cons_zero] at hj
            cases hj
            exact ⟨t, rfl, L, g, hg, hs⟩
          | succ j =>
            rw [List.getElem?_cons_succ] at hj
            obtain ⟨t', ht, hp⟩ := h3 j out hj
            exact ⟨t', ht, by rw [show i + (j + 1) = i + 1 + j by omega]; exact hp⟩
        · rw [hz]
          rcases h4 with ⟨h5, h6⟩ | ⟨t', e, h5, h6, h7⟩
          · exact .inl ⟨by rw [List.length_cons, h5], by rw [h6]⟩
          · refine .inr ⟨t', e, h5, by rw [show i + (k + 1) = i + 1 + k by omega]; exact h6, ?_⟩
            rw [show i + (k + 1) = i + 1 + k by omega]
            rcases h7 with h7 | h7
            · exact .inl (by rw [h7])
            · exact .inr (by rw [h7]; rfl)

/-- C99: the files written by split_sgf_collection are those for the games of the collection, in order, each in its own file, up to the first game which can't
be split; then there's an exception, and there may be an empty file for that game. If the text isn't a collection, no file is written. -/
theorem C99_split_files (E : Sgf.Encodings) (F : Sgf.Floats) {pathname dir name : Str} (hp : Conf.Spec.Located pathname dir name) (source : Str) :
    (∀ ts, Sgf.parseSgfCollection source = .ok ts → ∃ outs : List Str, ∃ k : Nat, outs.length = k ∧
      (∀ j out, outs[j]? = some out → ∃ t, ts[j]? = some t ∧ SplitsTo E F name j t out) ∧
      ((k = ts.length ∧ splitSgf E F pathname source = (outs.zipIdx.map (fun x => (splitPathname pathname x.2, x.1)), none)) ∨
        ∃ t e, ts[k]? = some t ∧ (∀ out, ¬ SplitsTo E F name k t out) ∧ (splitSgf E F pathname source).2 = some e ∧
          ((splitSgf E F pathname source).1 = outs.zipIdx.map (fun x => (splitPathname pathname x.2, x.1)) ∨
           (splitSgf E F pathname source).1 = outs.zipIdx.map (fun x => (splitPathname pathname x.2, x.1)) ++ [(splitPathname pathname k, [])]))) ∧
    (∀ e, Sgf.parseSgfCollection source = .error e → splitSgf E F pathname source = ([], some e)) := by
  have hname : (Conf.pathSplit pathname).2 = name := by rw [Conf.located_split.2 hp]
  constructor
  · intro ts hts
    obtain ⟨outs, k, h1, h2, h3, h4⟩ := splitLoop_spec E F pathname ts 0
    have he : splitSgf E F pathname source = splitLoop E F pathname 0 ts := by unfold splitSgf; rw [hts]
    simp only [Nat.zero_add, hname] at h3 h4
    rw [he]
    refine ⟨outs, k, h1, h3, ?_⟩
    rcases h4 with h4 | ⟨t, e, a, b, c | c⟩
    · exact .inl h4
    · exact .inr ⟨t, e, a, b, by rw [c], .inl (by rw [c])⟩
    · exact .inr ⟨t, e, a, b, by rw [c], .inr (by rw [c])⟩
  · intro e he
    unfold splitSgf
    rw [he]

theorem ext_append {name code ext : Str} (h : Conf.Spec.Ext name code ext) : name = code ++ ext := by
  cases h with
  | none h => rw [List.append_nil]
  | some h1 h2 => rfl

theorem digits_noslash (i : Nat) : '/' ∉ strInt (i + 1) ∧ '/' ∉ "_".toList := by
  refine ⟨fun h => ?_, by decide⟩
  rw [show ((i : Int) + 1) = ((i + 1 : Nat) : Int) by omega, strInt_natCast] at h
  have := Nat.isDigit_of_mem_toDigits (by omega) (by omega) h
  exact absurd this (by decide)

/-- C99: the file for a game is in the directory of the collection; its name is that of the collection with the number of the game (counting from one) before
its extension. -/
theorem C99_split_paths {pathname dir name code ext : Str} (hp : Conf.Spec.Located pathname dir name) (he : Conf.Spec.Ext name code ext) (i : Nat) :
    Conf.Spec.Located (splitPathname pathname i) dir (code ++ "_".toList ++ strInt (i + 1) ++ ext) ∧
    splitPathname pathname i ≠ pathname ∧ ∀ j, splitPathname pathname j = splitPathname pathname i → j = i := by
  have hloc : ∀ i : Nat, Conf.Spec.Located (splitPathname pathname i) dir (code ++ "_".toList ++ strInt (i + 1) ++ ext) := by
    intro i
    have hsl : '/' ∉ code ++ "_".toList ++ strInt (i + 1) ++ ext := by
      have hn := Conf.located_name hp
      rw [ext_append he] at hn
      obtain ⟨d1, d2⟩ := digits_noslash i
      simp only [List.mem_append, not_or] at hn ⊢
      exact ⟨⟨⟨hn.1, d2⟩, d1⟩, hn.2⟩
    have hj : splitPathname pathname i = Conf.Spec.inside dir (code ++ "_".toList ++ strInt (i + 1) ++ ext) := by
      unfold splitPathname
      rw [Conf.located_split.2 hp]
      simp only [Conf.splitExt_iff.2 he]
      unfold Gtp.pathJoin Conf.Spec.inside
      rw [if_neg]
      intro h
      exact hsl (List.mem_of_head? h)
    rw [hj]
    exact Conf.located_inside hp hsl
  refine ⟨hloc i, ?_, ?_⟩
  · intro e
    have h1 := hloc i
    rw [e] at h1
    obtain ⟨_, h2⟩ := Conf.located_unique h1 hp
    rw [ext_append he] at h2
    have := congrArg List.length h2
    simp only [List.length_append] at this
    have h3 : "_".toList.length = 1 := rfl
    omega
  · intro j e
    have h1 := hloc i
    have h2 := hloc j
    rw [e] at h2
    obtain ⟨_, h3⟩ := Conf.located_unique h1 h2
    have h4 := List.append_cancel_right h3
    have h5 := List.append_cancel_left h4
    have := strInt_inj h5
    omega

/-! ## find_forfeits -/

theorem forfeitLoop_spec {ms : List Conf.Matchup} {saved : Str → List GameResult} (hn : (ms.map Conf.Matchup.id).Nodup) : ∀ (l : List Conf.Matchup) (R : Conf.ResultsApi),
    Conf.ApiInv ms saved R → (∀ m ∈ l, m ∈ ms) →
    forfeitLoop R (l.map Conf.Matchup.id) = .ok (l.flatMap (fun m => ((saved m.id).filter (fun r => r.res.isForfeit)).map (forfeitLine m)))
  | [], _, _, _ => rfl
  | m :: l, R, h, hl => by
    rw [List.map_cons]
    unfold forfeitLoop
    have hm := hl m List.mem_cons_self
    have hg : R.getMatchup m.id = .ok m := by
      rcases h.getMatchup m.id with ⟨m', h1, h2, h3⟩ | ⟨h1, _⟩
      · rw [h3, List.inj_on_of_nodup_map hn h1 hm h2]
      · exact absurd (List.mem_map_of_mem hm) h1
    rw [hg]
    simp only
    rw [forfeitLoop_spec hn l _ (h.touch m.id) (fun x hx => hl x (List.mem_cons_of_mem _ hx)), Tourn.get_touch, h.get]
    rfl

/-- C99: whatever has happened to a tournament, find_forfeits shows one line for each game which was forfeited, by matchup in the order of the control file, and
in the order the results came in: the matchup's name, the player who forfeited, and the name of the file with the game's record. It only fails if the status can't
be loaded. -/
theorem C99_forfeits (W : Conf.World) (hW : Conf.PythonOK W) (c : Tourn.Comp) (ms : List Conf.Matchup) (h : Conf.Spec.AcceptedTournament W c ms) (events : List Tourn.Event) :
    (∀ e, Conf.loadResultsStatus c (Tourn.World.after events).disk = .error e → findForfeits c ms (Tourn.World.after events).disk = .error e) ∧
    (∀ t, Conf.loadResultsStatus c (Tourn.World.after events).disk = .ok t → ∃ lines, findForfeits c ms (Tourn.World.after events).disk = .ok (.ok lines) ∧
      List.Forall₂ IsForfeitLine (ms.flatMap (fun m => (((Tourn.World.after events).saved m.id).filter (fun r => r.res.isForfeit)).map (fun r => (m, r)))) lines) := by
  obtain ⟨hg, he, hn, hp⟩ := Conf.accepted_facts hW h
  constructor
  · intro e h1
    unfold findForfeits
    rw [h1]
  · intro t ht
    have hL : findForfeits c ms (Tourn.World.after events).disk = .ok (forfeitLoop (Conf.ResultsApi.new ms t.results) (ms.map Conf.Matchup.id)) := by
      unfold findForfeits
      rw [ht]
    unfold Conf.loadResultsStatus at ht
    split at ht
    · cases ht
    rename_i v s hd
    split at ht
    · cases ht
    rename_i t' hl
    injection ht with ht
    subst ht
    obtain ⟨hs, _, _, _, hres⟩ := Conf.loaded events hg hd hl
    rw [forfeitLoop_spec hn ms _ (Conf.api_new hn hs) (fun m hm => hm)] at hL
    refine ⟨_, hL, ?_⟩
    have key : ∀ l : List Conf.Matchup, (∀ m ∈ l, m ∈ ms) → List.Forall₂ IsForfeitLine
        (l.flatMap (fun m => (((Tourn.World.after events).saved m.id).filter (fun r => r.res.isForfeit)).map (fun r => (m, r))))
        (l.flatMap (fun m => (((Tourn.World.after events).saved m.id).filter (fun r => r.res.isForfeit)).map (forfeitLine m))) := by
      intro l
      induction l with
      | nil => exact fun _ => .nil
      | cons m l ih =>
        intro hl
        rw [List.flatMap_cons, List.flatMap_cons]
        refine List.rel_append ?_ (ih (fun x hx => hl x (List.mem_cons_of_mem _ hx)))
        rw [List.forall₂_map_left_iff, List.forall₂_map_right_iff, List.forall₂_same]
        intro r hr
        have hr' := (List.mem_filter.1 hr).1
        obtain ⟨gids, _, hf⟩ := Conf.C91_game_ids events m.id
        obtain ⟨i, hi, hri⟩ := List.mem_iff_getElem.1 hr'
        have hid := (List.forall₂_iff_get.1 hf).2 i hi (by rw [← (List.forall₂_iff_get.1 hf).1]; exact hi)
        obtain ⟨hid, _⟩ := hid
        rw [List.get_eq_getElem, hri] at hid
        have hb := (hres m.core (by rw [he]; exact List.mem_map_of_mem (hl m List.mem_cons_self))).between r hr'
        refine ⟨_, hid, ?_, ?_⟩
        · unfold forfeitLine Conf.sgfFilename
          rw [hid]
          simp only [List.append_assoc]
          rfl
        · intro p hpl
          obtain ⟨b1, _, _, b2⟩ := hb
          simp only at hpl
          unfold GameResult.losingPlayer at hpl
          cases hc : r.res.winningColour with
          | none => rw [hc] at hpl; cases hpl
          | some cc =>
            rw [hc, b1] at hpl
            cases cc <;> (simp only [Colour.opponent, playerGet, Option.some.injEq] at hpl; subst hpl)
            · rcases b2 with ⟨_, h2⟩ | ⟨_, h2⟩
              · exact .inr h2
              · exact .inl h2
            · rcases b2 with ⟨h2, _⟩ | ⟨h2, _⟩
              · exact .inl h2
              · exact .inr h2
    exact key ms (fun m hm => hm)

/-- A game record with a setup stone, a pass and a variation. -/
def exampleSgf : Str := "(;SZ[5]AB[bb](;W[ba];B[];W[ab];B[cc])(;W[ee]))".toList
/-- What show_sgf prints, or the message. -/
def textOf : Except ShowErr Str → String
  | .ok s => String.ofList s
  | .error (.standard m) => String.ofList m
  | .error .setup => "setup"
  | .error (.other _) => "other"
/-- A collection: the third game has a bad size. -/
def exampleCollection : Str := "(;C[first]B[ab])(;SZ[9];B[aa](;W[bb])(;W[cc]))(;SZ[x])(;SZ[9])".toList
/-- The files written for a collection in dir/x.sgf, and whether there's an exception. -/
def exampleSplit (src : Str) : List (String × String) × Bool :=
  let x := splitSgf Sgf.exampleEncodings Sgf.noFloats "dir/x.sgf".toList src
  (x.1.map (fun p => (String.ofList p.1, String.ofList p.2)), x.2.isSome)
/-- White won by forfeit. -/
def exampleForfeit : Tourn.Outcome := ⟨{ Res.withWinner (some .w) with isForfeit := true }, none, some 2, rfl, fun h => by simp [Res.withWinner] at h⟩
/-- A run of the example tournament in which one game is forfeited, which then crashes. -/
def forfeitEvents : List Tourn.Event :=
  let mgr : Tourn.Event := .step (.mgr Tourn.exampleEnv)
  [.start Conf.runControl none true 1, mgr, mgr, .step (.take 0), .step (.finishJob 0 (some (Tourn.exampleWin .b))), mgr, mgr, mgr, .step (.take 0),
   .step (.finishJob 0 (some exampleForfeit)), mgr, mgr, mgr, .step (.take 0), .down]
/-- What find_forfeits shows after that. -/
def exampleForfeits : Option (List String) :=
  match Conf.initAllplayall Conf.roundWorld none "test".toList (Conf.roundConfig 1) with
  | .ok a => match findForfeits a.comp a.base.matchups (Tourn.World.after forfeitEvents).disk with
    | .ok (.ok l) => some (l.map String.ofList)
    | _ => none
  | .error _ => none

/-- A concrete case for C99: show_sgf at the end and before the third move, and for a record with an illegal move; split_sgf_collection for a collection whose third
game can't be loaded, and for one with a game which can't be serialised (leaving an empty file); find_forfeits for a tournament with one forfeited game. -/
theorem C99_witness :
    textOf (showSgf (fun _ => true) exampleSgf none) =
      "5  .  o  .  .  .\n4  o  #  .  .  .\n3  .  .  #  .  .\n2  .  .  .  .  .\n1  .  .  .  .  .\n   A  B  C  D  E\n\n" ∧
    textOf (showSgf (fun _ => true) exampleSgf (some 3)) =
      "5  .  o  .  .  .\n4  .  #  .  .  .\n3  .  .  .  .  .\n2  .  .  .  .  .\n1  .  .  .  .  .\n   A  B  C  D  E\n\n" ∧
    textOf (showSgf (fun _ => true) "(;SZ[5];B[aa];W[aa])".toList none) = "illegal move in sgf file" ∧
    exampleSplit exampleCollection = ([("dir/x_1.sgf", "(;B[ab]C[first\n\nSplit from x.sgf (game 1)])\n"),
      ("dir/x_2.sgf", "(;C[Split from x.sgf (game 2)]SZ[9];B[aa](;W[bb])(;W[cc]))\n")], true) ∧
    exampleSplit "(;CA[UTF-8][XX])".toList = ([("dir/x_1.sgf", "")], true) ∧
    exampleForfeits = some ["p2 v p3: p2 forfeited game AvC_0.sgf"] := by
  refine ⟨?_, ?_, ?_, ?_, ?_, ?_⟩ <;> decide +kernel

end Gomill.Scripts
