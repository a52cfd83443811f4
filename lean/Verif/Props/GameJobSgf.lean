import Verif.Lemmas.GameJobSgf
/-
C69: the SGF records of games between engines.
-/
namespace Gomill.Gtp
open Py
open Gomill.Sgf
open Spec

variable {E : Encodings} {F : Floats} {σ δ τ : Type}

/-! ### Scoring -/

theorem normaliseScore_eq (s : Str) : normaliseScore s = canonicalScore s := by
  unfold normaliseScore canonicalScore upper
  by_cases h : ".0".toList <:+ s.map Char.toUpper
  · rw [if_pos (List.isSuffixOf_iff_suffix.2 h), if_pos h, List.dropLast_eq_take, List.dropLast_eq_take, List.take_take, List.length_take]
    congr 1
    omega
  · rw [if_neg (fun h' => h (List.isSuffixOf_iff_suffix.1 h')), if_neg h]

theorem strange_iff (r : GameResult) (o : Option Str) : strangeScore r o = true ↔ ∃ s, o = some s ∧ canonicalScore s ≠ r.res.sgfResult := by
  cases o with
  | none => simp [strangeScore]
  | some s => simp [strangeScore, normaliseScore_eq]

/-- C69: what describe_scoring says: the description of the result, and, if some reported score is not the one in the result, then all of the reported scores, black's first. -/
theorem C69_scoring (r : GameResult) (scores : Option (Colour → Option Str)) :
    (scores = none → describeScoring r scores = r.describe) ∧
    (∀ f, scores = some f → (∀ c s, f c = some s → canonicalScore s = r.res.sgfResult) → describeScoring r scores = r.describe) ∧
    (∀ f c s, scores = some f → f c = some s → canonicalScore s ≠ r.res.sgfResult →
      describeScoring r scores = r.describe ++ reported r.playerB (f .b) ++ reported r.playerW (f .w)) := by
  refine ⟨?_, ?_, ?_⟩
  · rintro rfl; rfl
  · rintro f rfl h
    have hs : ∀ c, strangeScore r (f c) = false := by
      intro c
      rw [← Bool.not_eq_true, strange_iff]
      rintro ⟨s, h1, h2⟩
      exact h2 (h c s h1)
    unfold describeScoring
    simp only [hs]
    rfl
  · rintro f c s rfl hc hne
    have hany : (strangeScore r (f .b) || strangeScore r (f .w)) = true := by
      rw [Bool.or_eq_true, strange_iff, strange_iff]
      cases c with
      | b => exact Or.inl ⟨s, hc, hne⟩
      | w => exact Or.inr ⟨s, hc, hne⟩
    unfold describeScoring
    simp only [hany, if_true]
    cases f .b <;> cases f .w <;> simp [join, scoreLine, reported, List.append_assoc]

/-- C69: the description of a result: who beat whom, the SGF result (or "jigo") and the detail; a forfeit's detail names the player and gives the reason. -/
theorem C69_describe (res : Res) (b w : Str) :
    (GameResult.setPlayers res b w).res.sgfResult = res.sgfResult ∧
    (res.isForfeit = false → (GameResult.setPlayers res b w).res.detail = res.detail) ∧
    (∀ c reason, res.isForfeit = true → res.losingColour = some c → res.detail = some reason →
      (GameResult.setPlayers res b w).res.detail = some ("forfeit by ".toList ++ player b w c ++ ": ".toList ++ reason)) ∧
    (∀ c, res.winningColour = some c → (GameResult.setPlayers res b w).describe =
      player b w c ++ " beat ".toList ++ player b w c.opponent ++ " ".toList ++ (if res.isJigo then "jigo".toList else res.sgfResult) ++
        inBrackets (GameResult.setPlayers res b w).res.detail) ∧
    (res.winningColour = none → (GameResult.setPlayers res b w).describe =
      b ++ " vs ".toList ++ w ++ " ".toList ++ (if res.isJigo then "jigo".toList else res.sgfResult) ++
        inBrackets (GameResult.setPlayers res b w).res.detail) := by
  refine ⟨rfl, ?_, ?_, ?_, ?_⟩
  · intro h; simp [GameResult.setPlayers, h]
  · intro c reason h1 h2 h3
    simp only [GameResult.setPlayers, h1, if_true, h2, h3]
    cases c <;> rfl
  · intro c hc
    unfold GameResult.describe
    have h1 : (GameResult.setPlayers res b w).res.winningColour = some c := hc
    have h2 : (GameResult.setPlayers res b w).winningPlayer = some (player b w c) := by
      simp only [GameResult.setPlayers, hc]; cases c <;> rfl
    have h3 : (GameResult.setPlayers res b w).losingPlayer = some (player b w c.opponent) := by
      unfold GameResult.losingPlayer; rw [h1]; cases c <;> rfl
    simp only [h1, h2, h3, Option.getD_some]
    have h4 : (GameResult.setPlayers res b w).res.isJigo = res.isJigo := rfl
    have h5 : (GameResult.setPlayers res b w).res.sgfResult = res.sgfResult := rfl
    rw [h4, h5]
    cases (GameResult.setPlayers res b w).res.detail <;> simp [inBrackets, List.append_assoc]
  · intro hc
    unfold GameResult.describe
    have h1 : (GameResult.setPlayers res b w).res.winningColour = none := hc
    simp only [h1]
    have h4 : (GameResult.setPlayers res b w).res.isJigo = res.isJigo := rfl
    have h5 : (GameResult.setPlayers res b w).res.sgfResult = res.sgfResult := rfl
    have h6 : (GameResult.setPlayers res b w).players = (b, w) := rfl
    rw [h4, h5, h6]
    cases (GameResult.setPlayers res b w).res.detail <;> simp [inBrackets, List.append_assoc]

/-! ### Texts -/

theorem Spec.Tidy.append {a b : Str} (ha : Tidy a) (hb : Tidy b) : Tidy (a ++ b) :=
  ⟨utf8Valid_concat _ _ _ (Nat.le_refl _) ha.1 hb.1, by simp [ha.2, hb.2]⟩

theorem Spec.Tidy.join {sep : Str} (hs : Tidy sep) : ∀ {l : List Str}, (∀ x ∈ l, Tidy x) → Tidy (Py.join sep l)
  | [], _ => ⟨rfl, by simp [Py.join]⟩
  | [a], h => h a (by simp)
  | a :: b :: l, h => by
    have := Spec.Tidy.join hs (l := b :: l) (fun x hx => h x (List.mem_cons_of_mem _ hx))
    exact ((h a (by simp)).append hs).append this

/-- The texts in a job are UTF-8 without carriage returns. -/
structure TidyJob (W : JobWorld σ) (job : GameJob δ) (d : Colour → EngineDesc) : Prop where
  gameId : Tidy job.gameId
  code : ∀ c, Tidy (job.player c).code
  event : ∀ s, job.sgfEvent = some s → Tidy s
  name : ∀ s, job.sgfGameName = some s → utf8Valid s = true
  note : ∀ s, job.sgfNote = some s → Tidy s
  short : ∀ c s, (d c).short = some s → utf8Valid s = true
  long : ∀ c s, (d c).long = some s → Tidy s
  now : Tidy W.now
  places : ∀ q, Tidy (W.twoPlaces q)
  version : utf8Valid W.version = true
  date : utf8Valid W.date = true

/-- The texts in the result are too. -/
structure TidyResult (g : GtpGame σ τ) : Prop where
  result : ∀ r, g.result = some r → Tidy r.describe ∧ Tidy r.playerB ∧ Tidy r.playerW
  scores : ∀ f c s, g.playerScores = some f → f c = some s → Tidy s

theorem tidy_scoring {g : GtpGame σ τ} (h : TidyResult g) {r : GameResult} (hr : g.result = some r) : Tidy (describeScoring r g.playerScores) := by
  obtain ⟨h1, h2, h3⟩ := h.result r hr
  have hlit : Tidy " final_score: ".toList := ⟨by decide +kernel, by decide +kernel⟩
  unfold describeScoring
  refine Tidy.join ⟨by decide +kernel, by decide⟩ ?_
  intro x hx
  rcases List.mem_cons.1 hx with rfl | hx
  · exact h1
  · cases hs : g.playerScores with
    | none => rw [hs] at hx; cases hx
    | some f =>
      rw [hs] at hx
      simp only at hx
      have hl : ∀ c code, Tidy code → ∀ x ∈ scoreLine code (f c), Tidy x := by
        intro c code hc x hx
        cases hf : f c with
        | none => rw [hf] at hx; cases hx
        | some s =>
          rw [hf] at hx
          simp only [scoreLine, List.mem_singleton] at hx
          subst hx
          exact (hc.append hlit).append (h.scores f c s hs hf)
      split at hx
      · rcases List.mem_append.1 hx with hx | hx
        · exact hl _ _ h2 x hx
        · exact hl _ _ h3 x hx
      · cases hx

theorem playerNote_eq (label : Str) (p : JobPlayer) (d : EngineDesc) : playerNote label p (some d) = .ok (lineAbout label p.code d) := by
  unfold playerNote lineAbout
  simp only
  cases d.long with
  | none => simp
  | some s => cases s <;> simp

theorem cpuNote_eq (W : JobWorld σ) (r : GameResult) (code : Str) : cpuNote W r code = cpuLine W.twoPlaces r code := by
  unfold cpuNote cpuLine
  cases r.cpuTimes.lookup code with
  | none => rfl
  | some t => cases t <;> rfl

theorem jobNotes_eq (W : JobWorld σ) (job : GameJob δ) (desc : Colour → Option EngineDesc) (d : Colour → EngineDesc) (hd : ∀ c, desc c = some (d c))
    (result : Option GameResult) (zeroMove : Bool) : jobNotes W job desc result zeroMove = .ok (rootLines W job d result (!zeroMove)) := by
  unfold jobNotes rootLines
  simp only [hd, playerNote_eq, bind, Except.bind, pure, Except.pure, Except.ok.injEq]
  cases job.sgfEvent <;> cases job.sgfNote <;> cases result <;> cases zeroMove <;> simp [cpuNote_eq]

theorem tidy_lines {W : JobWorld σ} {job : GameJob δ} {d : Colour → EngineDesc} (h : TidyJob W job d) {result : Option GameResult}
    (hr : ∀ r, result = some r → Tidy r.describe) (any : Bool) : ∀ x ∈ rootLines W job d result any, Tidy x := by
  have l1 : Tidy "Event: ".toList := ⟨by decide +kernel, by decide +kernel⟩
  have l2 : Tidy "Game id ".toList := ⟨by decide +kernel, by decide +kernel⟩
  have l3 : Tidy "Date ".toList := ⟨by decide +kernel, by decide +kernel⟩
  have l4 : Tidy "Result ".toList := ⟨by decide +kernel, by decide +kernel⟩
  have l5 : Tidy " cpu time: ".toList := ⟨by decide +kernel, by decide +kernel⟩
  have l6 : Tidy "s".toList := ⟨by decide +kernel, by decide +kernel⟩
  have l7 : Tidy "Black".toList := ⟨by decide +kernel, by decide +kernel⟩
  have l8 : Tidy "White".toList := ⟨by decide +kernel, by decide +kernel⟩
  have l9 : Tidy " ".toList := ⟨by decide +kernel, by decide +kernel⟩
  have habout : ∀ label c, Tidy label → Tidy (lineAbout label (job.player c).code (d c)) := by
    intro label c hl
    unfold lineAbout
    cases hs : (d c).long with
    | none => exact (hl.append l9).append (h.code c)
    | some s =>
      simp only
      split
      · exact (hl.append l9).append (h.code c)
      · exact (((hl.append l9).append (h.code c)).append l9).append (h.long c s hs)
  have hcpu : ∀ r c, ∀ x ∈ cpuLine W.twoPlaces r (job.player c).code, Tidy x := by
    intro r c x hx
    unfold cpuLine at hx
    split at hx
    · simp only [List.mem_singleton] at hx
      subst hx
      exact (((h.code c).append l5).append (h.places _)).append l6
    · cases hx
  intro x hx
  unfold rootLines at hx
  simp only [List.mem_append, List.mem_singleton] at hx
  rcases hx with ((((((hx | hx) | hx) | hx) | hx) | hx) | hx) | hx
  · cases he : job.sgfEvent with
    | none => rw [he] at hx; cases hx
    | some e =>
      rw [he] at hx
      simp only [List.mem_singleton] at hx
      subst hx
      exact l1.append (h.event e he)
  · subst hx; exact l2.append h.gameId
  · subst hx; exact l3.append h.now
  · cases result with
    | none => cases hx
    | some r =>
      simp only at hx
      split at hx
      · simp only [List.mem_singleton] at hx
        subst hx
        exact l4.append (hr r rfl)
      · cases hx
  · cases he : job.sgfNote with
    | none => rw [he] at hx; cases hx
    | some e =>
      rw [he] at hx
      simp only [List.mem_singleton] at hx
      subst hx
      exact h.note _ he
  · cases result with
    | none => cases hx
    | some r =>
      rcases List.mem_append.1 hx with hx | hx
      · exact hcpu r _ x hx
      · exact hcpu r _ x hx
  · subst hx; exact habout _ _ l7
  · subst hx; exact habout _ _ l8

/-! ### The records -/

/-- The texts after the moves: the final message, the scoring, and others. -/
def endTexts (g : GtpGame σ τ) (more : List Str) : List Str :=
  (g.runner.finalDiagnostics.map finalMessage).toList ++ (g.result.map (fun r => describeScoring r g.playerScores)).toList ++ more

theorem HasText.congr {P : Presenter} {ident : Str} {s : Option Str} {m m' : PropMap} (h : HasText P ident s m) (he : lookup m' ident = lookup m ident) :
    HasText P ident s m' :=
  ⟨fun h0 => by rw [he]; exact h.1 h0, fun t h0 => by rw [nodeGet_congr he]; exact h.2 t h0⟩

/-- The texts of a node, from C55. -/
theorem says_of_commentWith {P : Presenter} {c : Option Str} {x : Option (Colour × Str)} {m : PropMap} (h : CommentWith P c (x.map finalMessage) m) :
    Says P (c.toList ++ (x.map finalMessage).toList) m := by
  cases x with
  | none =>
    cases c with
    | none => exact ⟨fun _ => h, fun h => absurd rfl h⟩
    | some s =>
      obtain ⟨t, h1, h2⟩ := h
      exact ⟨(fun h => nomatch h), fun _ => ⟨[t], .cons h2 .nil, h1⟩⟩
  | some d =>
    obtain ⟨t, h1, h2⟩ := h
    cases c with
    | none => exact ⟨(fun h => nomatch h), fun _ => ⟨[t], .cons h2 .nil, h1⟩⟩
    | some s =>
      obtain ⟨s', h3, h4⟩ := h2
      refine ⟨(fun h => nomatch h), fun _ => ⟨[s', normText false (finalMessage d)], .cons h3 (.cons (normalised_normText _ _ _ (Nat.le_refl _)) .nil), ?_⟩⟩
      rw [h1, append_normalised (normalised_chars h3) ?_ h4]
      · rfl
      · unfold finalMessage
        simp

/-- The main sequence from C55, as the beginning of an annotated game. -/
theorem annot_start {E : Encodings} {isFloat : Rat → Prop} (hN : NamesOK E) (hE : E.normalise "UTF-8".toList = some "UTF-8".toList) (hEc : E.codec "UTF-8".toList = utf8Codec)
    (hFl : FloatsOK F isFloat) {L : Lib} (hs : Session E F L) {version date : Str} (hv : utf8Valid version = true) (hdt : utf8Valid date = true)
    {r : Runner τ} (hr : Recordable isFloat r) :
    ∃ M g root nodes, makeSgf E F L version date r = .ok M ∧ Usual F isFloat g r.boardSize ∧ g.encoding = "UTF-8".toList ∧
      Annot E F L g root nodes (r.moves.map (fun x => x.2.2)) M root nodes []
        ((r.moves.map (fun x => x.2.2)).getLast?.join.toList ++ (r.finalDiagnostics.map finalMessage).toList) ∧
      nodes.length = r.moves.length ∧ Declares E root "UTF-8".toList ∧
      ((∃ p, Go.OnBoard r.boardSize p ∧ p ∉ r.handicapStones.getD []) → ∃ b, M.getSetupAndMoves g = .ok (b, movesOf r) ∧ ReachableBoard r.boardSize b ∧ b.pos = handicapPosition r) ∧
      getKomi g.presenter root = .ok (.real (.fin (if -1/10000 < r.komi ∧ r.komi < 1/10000 then 0 else r.komi))) ∧
      ((∀ h, r.haProp = some h → 2 ≤ h) → getHandicap g.presenter root = .ok r.haProp) ∧
      HasText g.presenter ['R', 'E'] (r.result.map Res.sgfResult) root ∧
      (∀ k ∈ [['G', 'N'], ['E', 'V']], lookup root k = none) := by
  obtain ⟨M, g, root, nodes, a1, a2, a3, a4, a5, a6, a7, a8, a9, a10, a11, a12, a13, _, _, a16, ⟨c, m, a17, a18, a19⟩, a20⟩ :=
    C55_make_sgf hN hE hEc isFloat hFl hs hv hdt hr
  have hlen : nodes.length = r.moves.length := by
    have := a16.length_eq
    simp only [commentsOf, List.length_dropLast, List.length_cons, List.length_map] at this
    omega
  refine ⟨M, g, root, nodes, a1, ⟨hr.size, a5, hFl⟩, a6, ⟨⟨a2, a3, a7, a4⟩, List.forall₂_same.2 (fun x _ => SameMoves.refl x), ?_, fun _ _ => rfl, ?_, ?_⟩, hlen, a8, a9,
    a10, a11, ⟨fun h => a12 (by simpa using h), ?_⟩, fun k hk => a20 k (by
      simp only [List.mem_cons, List.not_mem_nil, or_false] at hk
      rcases hk with rfl | rfl <;> decide)⟩
  · by_cases hm : r.moves = []
    · rw [hm] at hlen ⊢
      rw [List.length_eq_zero_iff.1 hlen]
      exact .nil
    · have hn : nodes ≠ [] := by
        intro h
        rw [h] at hlen
        exact hm (List.length_eq_zero_iff.1 hlen.symm)
      unfold commentsOf at a16
      rw [List.dropLast_cons_of_ne_nil (by simpa using hm), List.dropLast_cons_of_ne_nil hn] at a16
      cases a16 with
      | cons _ h => exact h
  · rw [List.nil_append]
    have hsay := says_of_commentWith a19
    by_cases hm : r.moves = []
    · rw [hm] at hlen
      have hn := List.length_eq_zero_iff.1 hlen
      subst hn
      simp only [commentsOf, hm, List.map_nil, List.getLast?_singleton, Option.some.injEq] at a17 a18
      subst a17 a18
      rw [if_pos rfl, hm]
      exact hsay
    · have hn : nodes ≠ [] := by
        intro h
        rw [h] at hlen
        exact hm (List.length_eq_zero_iff.1 hlen.symm)
      rw [if_neg hn]
      unfold commentsOf at a16
      rw [List.dropLast_cons_of_ne_nil (by simpa using hm), List.dropLast_cons_of_ne_nil hn] at a16
      cases a16 with
      | cons h _ => exact ⟨fun _ => h, fun h => absurd rfl h⟩
  · intro hn
    have hm : r.moves ≠ [] := by
      intro h
      rw [h] at hlen
      exact hn (List.length_eq_zero_iff.1 hlen)
    rw [List.getLast?_cons_of_ne_nil hn] at a18
    unfold commentsOf at a17
    rw [List.getLast?_cons_of_ne_nil (by simpa using hm)] at a17
    refine ⟨m, a18, ?_⟩
    rw [a17]
    exact says_of_commentWith a19
  · intro t ht
    cases hrr : r.result with
    | none => rw [hrr] at ht; cases ht
    | some res =>
      rw [hrr] at ht
      cases ht
      exact a13 res hrr

/-- What is in the record of a job's game: `P` and `seq` are the presenter and the main sequence of an SGF game; `re` is the value of RE, and `more` the texts added to the
last comment. -/
structure JobRecord (W : JobWorld σ) (job : GameJob δ) (d : Colour → EngineDesc) (g : GtpGame σ τ) (re : Option Str) (more : List Str) (P : Presenter)
    (seq : List PropMap) : Prop where
  presenter : P = Presenter.new g.runner.boardSize utf8Codec W.F
  length : seq.length = g.runner.moves.length + 1
  moves : (∃ p, Go.OnBoard g.runner.boardSize p ∧ p ∉ g.runner.handicapStones.getD []) → ∃ b, Sgf.getSetupAndMoves P.size seq = .ok (b, movesOf g.runner) ∧ ReachableBoard g.runner.boardSize b ∧ b.pos = handicapPosition g.runner
  komi : ∀ root, seq.head? = some root → getKomi P root = .ok (.real (.fin (if -1/10000 < g.runner.komi ∧ g.runner.komi < 1/10000 then 0 else g.runner.komi)))
  handicap : ∀ root, seq.head? = some root → getHandicap P root = .ok g.runner.haProp
  result : ∀ root, seq.head? = some root → HasText P ['R', 'E'] re root
  gameName : ∀ root, seq.head? = some root → HasText P ['G', 'N'] (job.sgfGameName.or (if job.gameId = [] then none else some job.gameId)) root
  event : ∀ root, seq.head? = some root → HasText P ['E', 'V'] job.sgfEvent root
  black : ∀ root, seq.head? = some root → HasText P ['P', 'B'] (some (nameOf (job.player .b).nameFromGtp (job.player .b).code (d .b))) root
  white : ∀ root, seq.head? = some root → HasText P ['P', 'W'] (some (nameOf (job.player .w).nameFromGtp (job.player .w).code (d .w))) root
  rootComment : ∀ root, seq.head? = some root →
    Says P (join ['\n'] (rootLines W job d g.result (g.runner.moves ≠ [])) :: (if g.runner.moves = [] then endTexts g more else [])) root
  moveComments : List.Forall₂ (Comment P) (g.runner.moves.map (fun x => x.2.2)).dropLast seq.tail.dropLast
  lastComment : ∀ m, seq.tail.getLast? = some m → Says P ((g.runner.moves.map (fun x => x.2.2)).getLast?.join.toList ++ endTexts g more) m

theorem rootLines_ne (W : JobWorld σ) (job : GameJob δ) (d : Colour → EngineDesc) (result : Option GameResult) (any : Bool) : rootLines W job d result any ≠ [] := by
  intro h
  unfold rootLines at h
  have := (List.append_eq_nil_iff.1 h).2
  cases this

/-- Whether there are moves. -/
theorem last_is_root {L0 L : Lib} {g : GameRec} (hF : ∀ q, ∀ c ∈ F.repr q, c ≠ ']' ∧ c ≠ '\\') {root : PropMap} {nodes : List PropMap} (h : At E F L0 L g (root :: nodes)) :
    getLastNode L.heap g.root = g.root ↔ nodes = [] := by
  obtain ⟨a1, a2, a3, _⟩ := game_root hF h.session h.get
  have hed := (session_inv hF h.session).edited
  obtain ⟨p1, p2, p3, _⟩ := C23_navigation hed g.root a1
  have hseq := h.seq
  unfold Lib.mainSequence at hseq
  generalize hl : getMainSequence L.heap g.root = l at *
  cases l with
  | nil => cases p2
  | cons x l =>
    simp only [List.head?_cons, Option.some.injEq] at p2
    subst p2
    simp only [List.map_cons, List.cons.injEq] at hseq
    constructor
    · intro he
      rcases List.eq_nil_or_concat l with rfl | ⟨i, y, hc⟩
      · simpa using hseq.2.symm
      · rw [List.concat_eq_append] at hc
        subst hc
        exfalso
        have : getLastNode L.heap g.root = y := by
          have h3 : (g.root :: (i ++ [y])).getLast? = some y := by rw [← List.cons_append, List.getLast?_concat]
          rw [h3] at p3
          exact (Option.some.inj p3).symm
        have hn := path_last_new p1 (l' := g.root :: i) (x := y) rfl
        rw [← this, he] at hn
        exact hn (by simp)
    · rintro rfl
      have : l = [] := by simpa using hseq.2
      subst this
      simpa using p3.symm

theorem HasText.step {P : Presenter} {ident : Str} {s0 v : Option Str} {m m' : PropMap} (h : HasText P ident s0 m)
    (h1 : v = none → lookup m' ident = lookup m ident) (h2 : ∀ s, v = some s → ∃ t, nodeGet P m' ident = .ok (.str t) ∧ Normalised true s t) :
    HasText P ident (v.or s0) m' := by
  cases v with
  | none => exact HasText.congr h (h1 rfl)
  | some s => exact ⟨(fun h => nomatch h), fun t ht => by cases ht; exact h2 s rfl⟩

theorem playerName_eq (d : EngineDesc) (code : Str) : playerName (some d) code = .ok (.str (nameOf true code d)) := by
  unfold playerName nameOf
  simp only [if_true]
  cases d.short with
  | none => rfl
  | some s => cases s <;> rfl

/-- The record made by a job, as an annotated game; a value for RE may be set afterwards. -/
theorem job_annot (W : JobWorld σ) (job : GameJob δ) (d : Colour → EngineDesc) (desc : Colour → Option EngineDesc) (g : GtpGame σ Unit)
    {isFloat : Rat → Prop} (hN : NamesOK W.E) (hE : W.E.normalise "UTF-8".toList = some "UTF-8".toList) (hEc : W.E.codec "UTF-8".toList = utf8Codec)
    (hFl : FloatsOK W.F isFloat) (hd : ∀ c, desc c = some (d c)) (hj : TidyJob W job d) (hr : Recordable isFloat g.runner) (ht : TidyResult g)
    (hha : ∀ h, g.runner.haProp = some h → 2 ≤ h) (hid : g.gameId = some job.gameId) (hcode : ∀ c, g.runner.env.gc.code c = (job.player c).code)
    (endMessage late : Option Str) (hem : ∀ s, endMessage = some s → Tidy s) (hlate : ∀ s, late = some s → Tidy s) (re : Option Str)
    (hre : ∀ s, re = some s → utf8Valid s = true) :
    ∃ M rec, jobSgf W job desc late g endMessage = .ok (M, rec) ∧ rec.encoding = "UTF-8".toList ∧
      ∃ M', M.setRootMaybe rec ['R', 'E'] (re.map .str) = .ok M' ∧ Session W.E W.F M' ∧ M'.games = [rec] ∧
        Declares W.E (M'.heap.props rec.root) "UTF-8".toList ∧
        JobRecord W job d g (re.or (g.runner.result.map Res.sgfResult)) (endMessage.toList ++ late.toList) rec.presenter (M'.mainSequence rec) := by
  have hF := hFl.chars
  obtain ⟨M0, rec, root0, nodes0, a1, u, a2, A0, a3, a4, a5, a6, a7, a8, a9⟩ := annot_start hN hE hEc hFl (Session.start (E := W.E) (F := W.F)) hj.version hj.date hr
  have hname : ∀ c, utf8Valid (nameOf true (job.player c).code (d c)) = true := by
    intro c
    unfold nameOf
    rw [if_pos rfl]
    cases hs : (d c).short with
    | none => exact (hj.code c).1
    | some s =>
      simp only
      split
      · exact (hj.code c).1
      · exact hj.short c s hs
  -- Gtp_game.make_sgf
  obtain ⟨M1, r1, b1, A1, c1, _, e1⟩ := A0.set u ['P', 'B'] (by decide) (some (nameOf true (job.player .b).code (d .b))) (by rintro s ⟨⟩; exact hname .b)
  obtain ⟨M2, r2, b2, A2, c2, _, e2⟩ := A1.set u ['P', 'W'] (by decide) (some (nameOf true (job.player .w).code (d .w))) (by rintro s ⟨⟩; exact hname .w)
  obtain ⟨M3, r3, b3, A3, c3, d3, e3⟩ := A2.set u ['G', 'N'] (by decide) (if job.gameId = [] then none else some job.gameId) (by
    intro s hs
    split at hs
    · cases hs
    · cases hs; exact hj.gameId.1)
  obtain ⟨M4, r4, n4, b4, A4, c4, d4⟩ := A3.add u (g.result.map (fun r => describeScoring r g.playerScores)) (by
    intro x hx
    cases hrr : g.result with
    | none => rw [hrr] at hx; cases hx
    | some r => rw [hrr] at hx; cases hx; exact tidy_scoring ht hrr)
  have hmk : g.makeSgf W.E W.F ⟨[], []⟩ W.version W.date desc = .ok (M4, rec) := by
    unfold GtpGame.makeSgf
    simp only [bind, Except.bind, a1]
    have hlast : M0.games.getLast? = some rec := by rw [A0.pos.games]; simp
    rw [hlast]
    simp only [hd, hcode, playerName_eq]
    simp only [Option.map_some] at b1 b2
    simp only [b1, b2]
    have hgn : gameIdName g.gameId =
        (if job.gameId = [] then none else some job.gameId : Option Str).map .str := by
      rw [hid]
      cases job.gameId <;> rfl
    rw [hgn]
    simp only [b3, b4]
    rfl
  -- _make_sgf
  obtain ⟨M5, r5, b5, A5, c5, d5, e5⟩ := A4.set u ['G', 'N'] (by decide) job.sgfGameName hj.name
  obtain ⟨M6, r6, b6, A6, c6, d6, e6⟩ := A5.set u ['E', 'V'] (by decide) job.sgfEvent (fun s hs => (hj.event s hs).1)
  have hown : ∀ c, ownName (job.player c) = (if (job.player c).nameFromGtp then none else some (job.player c).code : Option Str).map .str := by
    intro c
    unfold ownName
    cases (job.player c).nameFromGtp <;> rfl
  have hownv : ∀ c s, (if (job.player c).nameFromGtp then none else some (job.player c).code : Option Str) = some s → utf8Valid s = true := by
    intro c s hs
    split at hs
    · cases hs
    · cases hs; exact (hj.code c).1
  obtain ⟨M7, r7, b7, A7, c7, d7, e7⟩ := A6.set u ['P', 'B'] (by decide) _ (hownv .b)
  obtain ⟨M8, r8, b8, A8, c8, d8, e8⟩ := A7.set u ['P', 'W'] (by decide) _ (hownv .w)
  have hn4 : n4 = [] ↔ g.runner.moves = [] := by
    rw [d4]
    constructor
    · intro h; rw [h] at a3; exact List.length_eq_zero_iff.1 a3.symm
    · intro h; rw [h] at a3; exact List.length_eq_zero_iff.1 a3
  have hnotes : jobNotes W job desc g.result (decide (getLastNode M6.heap rec.root = rec.root)) = .ok (rootLines W job d g.result (g.runner.moves ≠ [])) := by
    rw [jobNotes_eq W job desc d hd]
    congr 2
    have : getLastNode M6.heap rec.root = rec.root ↔ g.runner.moves = [] := by rw [last_is_root hF A6.pos, hn4]
    by_cases hm : g.runner.moves = []
    · simp [hm, this.2 hm]
    · have h2 : ¬ getLastNode M6.heap rec.root = rec.root := fun h => hm (this.1 h)
      simp [hm, h2]
  obtain ⟨M9, r9, b9, A9, c9⟩ := A8.notes u (rootLines W job d g.result (g.runner.moves ≠ [])) (rootLines_ne _ _ _ _ _) (Spec.Tidy.join ⟨by decide +kernel, by decide⟩ (tidy_lines hj (fun r hr' => (ht.result r hr').1) _))
  obtain ⟨M10, r10, n10, b10, A10, c10, d10⟩ := A9.add u endMessage hem
  obtain ⟨M11, r11, n11, b11, A11, c11, d11⟩ := A10.add u late hlate
  obtain ⟨M12, r12, b12, A12, c12, d12, e12⟩ := A11.set u ['R', 'E'] (by decide) re hre
  have hjob : jobSgf W job desc late g endMessage = .ok (M11, rec) := by
    unfold jobSgf
    simp only [bind, Except.bind, hmk, b5, b6, hnotes, hown, b7, b8, b9, b10, b11]
    rfl
  have hroot := A12.pos.root_props
  have hn11 : n11 = [] ↔ g.runner.moves = [] := by rw [d11, d10, hn4]
  have hlk : ∀ k, k ∉ annotKeys → lookup r12 k = lookup root0 k := A12.others
  refine ⟨M11, rec, hjob, a2, M12, b12, A12.pos.session, by rw [A12.pos.games]; rfl, ?_, ?_⟩
  · rw [hroot]
    unfold Declares at a4 ⊢
    rw [hlk _ (by decide)]
    exact a4
  · rw [A12.pos.seq]
    have hh : ∀ {p : PropMap → Prop}, p r12 → ∀ root, (r12 :: n11).head? = some root → p root := by
      intro p hp root hx
      cases hx
      exact hp
    refine ⟨u.presenter, ?_, ?_, hh ?_, hh ?_, hh ?_, hh ?_, hh ?_, hh ?_, hh ?_, hh ?_, A12.mids, ?_⟩
    · have := A12.same.length_eq
      simp only [List.length_cons] at this ⊢
      omega
    · intro hfree
      obtain ⟨b, a5, a5', a5''⟩ := a5 hfree
      refine ⟨b, ?_, a5', a5''⟩
      rw [← getSetupAndMoves_congr _ A12.same]
      have := A0.pos.seq
      unfold Lib.getSetupAndMoves at a5
      rw [this] at a5
      exact a5
    · unfold getKomi at a6 ⊢
      rw [nodeGet_congr (hlk _ (by decide))]
      exact a6
    · have := a7 hha
      unfold getHandicap at this ⊢
      rw [nodeGet_congr (hlk _ (by decide))]
      exact this
    · refine HasText.step (HasText.congr a8 ?_) d12 e12
      rw [c11 _ (by decide), c10 _ (by decide), c9 _ (by decide), c8 _ (by decide), c7 _ (by decide), c6 _ (by decide), c5 _ (by decide), c4 _ (by decide), c3 _ (by decide),
        c2 _ (by decide), c1 _ (by decide)]
    · have h0 : HasText rec.presenter ['G', 'N'] none r2 := ⟨fun _ => by rw [c2 _ (by decide), c1 _ (by decide)]; exact a9 _ (by decide), (fun _ h => nomatch h)⟩
      have h3 := HasText.step h0 d3 e3
      have h5 := HasText.step (HasText.congr h3 (c4 _ (by decide))) d5 e5
      rw [Option.or_none] at h5
      refine HasText.congr h5 ?_
      rw [c12 _ (by decide), c11 _ (by decide), c10 _ (by decide), c9 _ (by decide), c8 _ (by decide), c7 _ (by decide), c6 _ (by decide)]
    · have h0 : HasText rec.presenter ['E', 'V'] none r5 := ⟨fun _ => by
        rw [c5 _ (by decide), c4 _ (by decide), c3 _ (by decide), c2 _ (by decide), c1 _ (by decide)]; exact a9 _ (by decide), (fun _ h => nomatch h)⟩
      have h6 := HasText.step h0 d6 e6
      rw [Option.or_none] at h6
      refine HasText.congr h6 ?_
      rw [c12 _ (by decide), c11 _ (by decide), c10 _ (by decide), c9 _ (by decide), c8 _ (by decide), c7 _ (by decide)]
    · have h1 : HasText rec.presenter ['P', 'B'] (some (nameOf true (job.player .b).code (d .b))) r1 := ⟨(fun h => nomatch h), fun t ht => by cases ht; exact e1 _ rfl⟩
      have h7 := HasText.step (HasText.congr h1 (m' := r6) (by rw [c6 _ (by decide), c5 _ (by decide), c4 _ (by decide), c3 _ (by decide), c2 _ (by decide)])) d7 e7
      have he : (if (job.player .b).nameFromGtp then none else some (job.player .b).code : Option Str).or (some (nameOf true (job.player .b).code (d .b))) =
          some (nameOf (job.player .b).nameFromGtp (job.player .b).code (d .b)) := by
        cases (job.player .b).nameFromGtp <;> rfl
      rw [he] at h7
      refine HasText.congr h7 ?_
      rw [c12 _ (by decide), c11 _ (by decide), c10 _ (by decide), c9 _ (by decide), c8 _ (by decide)]
    · have h1 : HasText rec.presenter ['P', 'W'] (some (nameOf true (job.player .w).code (d .w))) r2 := ⟨(fun h => nomatch h), fun t ht => by cases ht; exact e2 _ rfl⟩
      have h7 := HasText.step (HasText.congr h1 (m' := r7) (by rw [c7 _ (by decide), c6 _ (by decide), c5 _ (by decide), c4 _ (by decide), c3 _ (by decide)])) d8 e8
      have he : (if (job.player .w).nameFromGtp then none else some (job.player .w).code : Option Str).or (some (nameOf true (job.player .w).code (d .w))) =
          some (nameOf (job.player .w).nameFromGtp (job.player .w).code (d .w)) := by
        cases (job.player .w).nameFromGtp <;> rfl
      rw [he] at h7
      refine HasText.congr h7 ?_
      rw [c12 _ (by decide), c11 _ (by decide), c10 _ (by decide), c9 _ (by decide)]
    · have := A12.rootC
      by_cases hm : g.runner.moves = []
      · rw [if_pos (hn11.2 hm)] at this
        rw [if_pos hm]
        have h0 : (g.runner.moves.map (fun x => x.2.2)).getLast?.join.toList = [] := by rw [hm]; rfl
        rw [h0] at this
        simpa [endTexts, List.append_assoc] using this
      · rw [if_neg (fun h => hm (hn11.1 h))] at this
        rw [if_neg hm]
        exact this
    · intro m hm
      have hne : n11 ≠ [] := by rintro rfl; cases hm
      obtain ⟨m', x1, x2⟩ := A12.lastC hne
      simp only [List.tail_cons] at hm
      rw [x1] at hm
      cases hm
      simpa [endTexts, List.append_assoc] using x2

/-- The same, after writing and loading. -/
theorem JobRecord.congr {W : JobWorld σ} {job : GameJob δ} {d : Colour → EngineDesc} {g : GtpGame σ τ} {re : Option Str} {more : List Str} {P : Presenter}
    {seq seq' : List PropMap} (h : JobRecord W job d g re more P seq) (hs : List.Forall₂ SameMap seq seq') : JobRecord W job d g re more P seq' := by
  have hmv : Sgf.getSetupAndMoves P.size seq' = Sgf.getSetupAndMoves P.size seq :=
    (getSetupAndMoves_congr _ (hs.imp (fun _ _ h => sameMoves_of_same h))).symm
  cases hs with
  | nil => have := h.length; simp at this
  | @cons r r' l l' hr hl =>
    have hget : ∀ k, lookup r' k = lookup r k := fun k => (hr k).symm
    have hh : ∀ {p : PropMap → Prop}, p r' → ∀ root, (r' :: l').head? = some root → p root := by
      intro p hp root hx
      cases hx
      exact hp
    refine ⟨h.presenter, ?_, ?_, hh ?_, hh ?_, hh (HasText.congr (h.result r rfl) (hget _)), hh (HasText.congr (h.gameName r rfl) (hget _)),
      hh (HasText.congr (h.event r rfl) (hget _)), hh (HasText.congr (h.black r rfl) (hget _)), hh (HasText.congr (h.white r rfl) (hget _)),
      hh (Says.congr (h.rootComment r rfl) (hget _)), ?_, ?_⟩
    · have := h.length
      rw [← this]
      simp [hl.length_eq]
    · intro hfree
      obtain ⟨b, h1, h2⟩ := h.moves hfree
      exact ⟨b, by rw [hmv]; exact h1, h2⟩
    · have := h.komi r rfl
      unfold getKomi at this ⊢
      rw [nodeGet_congr (hget _)]
      exact this
    · have := h.handicap r rfl
      unfold getHandicap at this ⊢
      rw [nodeGet_congr (hget _)]
      exact this
    · have h1 := h.moveComments
      have h2 : List.Forall₂ SameMap l.dropLast l'.dropLast := by
        rw [List.dropLast_eq_take, List.dropLast_eq_take, hl.length_eq]
        exact List.forall₂_take _ hl
      simp only [List.tail_cons] at h1 ⊢
      exact comments_congr h1 h2
    · intro m hm
      simp only [List.tail_cons] at hm
      cases hlast : l.getLast? with
      | none =>
        have h0 : l = [] := List.getLast?_eq_none_iff.1 hlast
        subst h0
        cases hl
        cases hm
      | some m0 =>
        have hsame : SameMap m0 m := by
          obtain ⟨a, b, i, j, e1, e2, _, e4⟩ := forall₂_init_last hl (by rintro rfl; cases hlast)
          rw [e1, List.getLast?_concat] at hlast
          rw [e2, List.getLast?_concat] at hm
          cases hlast
          cases hm
          exact e4
        exact Says.congr (h.lastComment m0 hlast) (hsame _).symm
where
  comments_congr {cs : List (Option Str)} {l l' : List PropMap} (h1 : List.Forall₂ (Comment P) cs l) (h2 : List.Forall₂ SameMap l l') :
      List.Forall₂ (Comment P) cs l' := by
    induction h1 generalizing l' with
    | nil => cases h2; exact .nil
    | @cons c m cs l hc _ ih =>
      cases h2 with
      | @cons _ m' _ l' hm hl =>
        refine .cons ?_ (ih hl)
        unfold Comment at hc ⊢
        cases c with
        | none => simp only at hc ⊢; rw [← hm]; exact hc
        | some s => simp only at hc ⊢; rw [nodeGet_congr (hm _).symm]; exact hc

/-- What is assumed for a record to be made. -/
structure Recorded (W : JobWorld σ) (job : GameJob δ) (d : Colour → EngineDesc) (isFloat : Rat → Prop) (g : GtpGame σ Unit) : Prop where
  names : NamesOK W.E
  utf8 : W.E.normalise "UTF-8".toList = some "UTF-8".toList ∧ W.E.codec "UTF-8".toList = utf8Codec
  floats : FloatsOK W.F isFloat
  texts : TidyJob W job d
  runner : Recordable isFloat g.runner
  result : TidyResult g
  handicap : ∀ h, g.runner.haProp = some h → 2 ≤ h
  gameId : g.gameId = some job.gameId
  codes : ∀ c, g.runner.env.gc.code c = (job.player c).code

/-- The text is an SGF file with this record. -/
def FileHas (W : JobWorld σ) (job : GameJob δ) (d : Colour → EngineDesc) (g : GtpGame σ Unit) (re : Option Str) (more : List Str) (text : Str) : Prop :=
  ∀ M : Lib, ∃ M' rec, M.fromString W.E W.F text none = .ok M' ∧ M'.games = M.games ++ [rec] ∧ JobRecord W job d g re more rec.presenter (M'.mainSequence rec)

theorem job_file (W : JobWorld σ) (job : GameJob δ) (d : Colour → EngineDesc) (desc : Colour → Option EngineDesc) (g : GtpGame σ Unit)
    {isFloat : Rat → Prop} (h : Recorded W job d isFloat g) (hd : ∀ c, desc c = some (d c))
    (endMessage late : Option Str) (hem : ∀ s, endMessage = some s → Tidy s) (hlate : ∀ s, late = some s → Tidy s) (re : Option Str)
    (hre : ∀ s, re = some s → utf8Valid s = true) :
    ∃ M rec M', jobSgf W job desc late g endMessage = .ok (M, rec) ∧ M.setRootMaybe rec ['R', 'E'] (re.map .str) = .ok M' ∧
      ∀ wrap, ∃ text, M'.serialise W.E rec wrap = .ok text ∧
        FileHas W job d g (re.or (g.runner.result.map Res.sgfResult)) (endMessage.toList ++ late.toList) text := by
  obtain ⟨M, rec, a1, a2, M', a3, a4, a5, a6, a7⟩ := job_annot W job d desc g h.names h.utf8.1 h.utf8.2 h.floats hd h.texts h.runner h.result h.handicap h.gameId h.codes
    endMessage late hem hlate re hre
  refine ⟨M, rec, M', a1, a3, ?_⟩
  intro wrap
  have hP := a7.presenter
  obtain ⟨s, b1, b2⟩ := C54_round_trip h.floats.chars h.names a4 (o := 0) (g := rec) (by rw [a5]; rfl) (by rw [hP]; rfl) (by rw [a2]; exact a6)
    (by rw [a2, h.utf8.2]; exact utf8_ok) wrap
  refine ⟨s, b1, ?_⟩
  intro M1
  obtain ⟨M2, g2, c1, c2, c3, c4, _⟩ := b2 M1
  refine ⟨M2, g2, c1, c2, ?_⟩
  have : g2.presenter = rec.presenter := by rw [c3, a2, h.utf8.2, hP]; rfl
  rw [this]
  exact a7.congr c4

/-- C69: after a completed game (or any game), `_record_game` writes one SGF file, in the directory for SGF files, which can be loaded and contains the record of the game: RE is the
result, and the late errors are in the last comment. If there's no directory or no filename nothing happens. -/
theorem C69_record_game (W : JobWorld σ) (job : GameJob δ) (d : Colour → EngineDesc) (g : GtpGame σ Unit) (st : JobSt σ) {isFloat : Rat → Prop}
    (h : Recorded W job d isFloat g) (hd : ∀ c, st.desc c = some (d c)) (hlate : ∀ s ∈ st.late, Tidy s) :
    (job.sgfDirname = none ∨ job.sgfFilename = none → recordGame W job g st = (.ok (), st)) ∧
    (∀ dir file, job.sgfDirname = some dir → job.sgfFilename = some file →
      (W.canOpen (pathJoin dir file) = false → recordGame W job g st = (.error .other, st)) ∧
      (W.canOpen (pathJoin dir file) = true → ∃ text, recordGame W job g st =
        (.ok (), { st with trace := st.trace ++ [.opened (pathJoin dir file), .wrote (pathJoin dir file) text, .closed (pathJoin dir file)] }) ∧
        FileHas W job d g (g.runner.result.map Res.sgfResult) (if st.late = [] then [] else [join ['\n'] st.late]) text)) := by
  have hl : ∀ s, st.describeLate = some s → Tidy s := by
    intro s hs
    unfold JobSt.describeLate at hs
    split at hs
    · cases hs
    · cases hs
      exact Spec.Tidy.join ⟨by decide +kernel, by decide⟩ hlate
  obtain ⟨M, rec, M', a1, a2, a3⟩ := job_file W job d st.desc g h hd none st.describeLate (fun _ h => nomatch h) hl none (fun _ h => nomatch h)
  cases a2
  obtain ⟨text, a4, a5⟩ := a3 (some 79)
  have hmore : ((none : Option Str).toList ++ st.describeLate.toList) = if st.late = [] then [] else [join ['\n'] st.late] := by
    unfold JobSt.describeLate
    split <;> rfl
  rw [hmore] at a5
  constructor
  · intro h0
    unfold recordGame
    rcases h0 with h0 | h0
    · rw [h0]
    · rw [h0]; cases job.sgfDirname <;> rfl
  · intro dir file h1 h2
    have he : recordGame W job g st = st.writeSgf W (pathJoin dir file) text := by
      unfold recordGame
      rw [h1, h2]
      simp only [a1, a4]
    constructor
    · intro hc
      rw [he, JobSt.writeSgf, if_neg (by rw [hc]; simp)]
    · intro hc
      refine ⟨text, ?_, a5⟩
      rw [he, JobSt.writeSgf, if_pos hc]

/-- C69: after a game which was aborted, `_record_void_game` writes one SGF file to the directory for void games if there were any moves: RE is 'Void', and the error message and
the late errors are in the last comment. Otherwise nothing happens. -/
theorem C69_record_void_game (W : JobWorld σ) (job : GameJob δ) (d : Colour → EngineDesc) (g : GtpGame σ Unit) (msg : Str) (st : JobSt σ) {isFloat : Rat → Prop}
    (h : Recorded W job d isFloat g) (hd : ∀ c, st.desc c = some (d c)) (hmsg : Tidy msg) (hlate : ∀ s ∈ st.late, Tidy s) :
    (g.runner.moves = [] ∨ job.voidSgfDirname = none ∨ job.sgfFilename = none → recordVoidGame W job g msg st = (.ok (), st)) ∧
    (∀ dir file, g.runner.moves ≠ [] → job.voidSgfDirname = some dir → job.sgfFilename = some file →
      (W.canMakeDir dir = false → recordVoidGame W job g msg st = (.error .other, st)) ∧
      (W.canMakeDir dir = true → W.canOpen (pathJoin dir file) = false →
        recordVoidGame W job g msg st = (.error .other, { st with trace := st.trace ++ [.madeDir dir] })) ∧
      (W.canMakeDir dir = true → W.canOpen (pathJoin dir file) = true → ∃ text, recordVoidGame W job g msg st =
        (.ok (), { st with trace := st.trace ++ [.madeDir dir, .opened (pathJoin dir file), .wrote (pathJoin dir file) text, .closed (pathJoin dir file)] }) ∧
        FileHas W job d g (some "Void".toList) (msg :: (if st.late = [] then [] else [join ['\n'] st.late])) text)) := by
  have hl : ∀ s, st.describeLate = some s → Tidy s := by
    intro s hs
    unfold JobSt.describeLate at hs
    split at hs
    · cases hs
    · cases hs
      exact Spec.Tidy.join ⟨by decide +kernel, by decide⟩ hlate
  obtain ⟨M, rec, M', a1, a2, a3⟩ := job_file W job d st.desc g h hd (some msg) st.describeLate (by rintro _ ⟨⟩; exact hmsg) hl (some "Void".toList)
    (by rintro _ ⟨⟩; decide +kernel)
  obtain ⟨text, a4, a5⟩ := a3 (some 79)
  have hmore : ((some msg : Option Str).toList ++ st.describeLate.toList) = msg :: (if st.late = [] then [] else [join ['\n'] st.late]) := by
    unfold JobSt.describeLate
    split <;> rfl
  rw [hmore] at a5
  constructor
  · intro h0
    unfold recordVoidGame
    by_cases hm : g.runner.moves = []
    · rw [if_pos hm]
    · rw [if_neg hm]
      rcases h0 with h0 | h0 | h0
      · exact absurd h0 hm
      · rw [h0]
      · rw [h0]; cases job.voidSgfDirname <;> rfl
  · intro dir file hm h1 h2
    have hdl : ({ st with trace := st.trace ++ [JobEvent.madeDir dir] } : JobSt σ).describeLate = st.describeLate := rfl
    have he : W.canMakeDir dir = true → recordVoidGame W job g msg st =
        ({ st with trace := st.trace ++ [JobEvent.madeDir dir] } : JobSt σ).writeSgf W (pathJoin dir file) text := by
      intro hc
      unfold recordVoidGame
      rw [if_neg hm, h1, h2]
      simp only [hc, Bool.not_true, Bool.false_eq_true, if_false, hdl, a1]
      simp only [Option.map_some] at a2
      simp only [a2, a4]
    refine ⟨?_, ?_, ?_⟩
    · intro hc
      unfold recordVoidGame
      rw [if_neg hm, h1, h2]
      simp only [hc, Bool.not_false, if_true]
    · intro hc ho
      rw [he hc, JobSt.writeSgf, if_neg (by rw [ho]; simp)]
    · intro hc ho
      refine ⟨text, ?_, a5⟩
      rw [he hc, JobSt.writeSgf, if_pos ho]
      simp [List.append_assoc]

/-! ### witnesses -/

/-- An engine with a table of responses (a failure if it starts with '?', a GtpChannelError if it starts with '!'), and the outstanding command. -/
abbrev Table := List (Str × Str) × Option Str

/-- The engine's channel. -/
def tableChannel : Channel Table where
  send := fun command _ s => (.ok (), (s.1, some command))
  recv := fun s => match s.2 with
    | none => (.error ⟨.other, "no outstanding commands".toList⟩, s)
    | some command => match s.1.lookup command with
      | some ('?' :: r) => (.ok (true, r), (s.1, none))
      | some ('!' :: r) => (.error ⟨.closed, r⟩, (s.1, none))
      | some r => (.ok (false, r), (s.1, none))
      | none => (.ok (true, "unknown command".toList), (s.1, none))
  close := fun s => (none, s)

/-- The usual responses, with one for genmove. -/
def simpleEngine (genmove : String) : List (Str × Str) :=
  [("protocol_version".toList, "2".toList), ("boardsize".toList, []), ("clear_board".toList, []), ("komi".toList, []), ("genmove".toList, genmove.toList), ("play".toList, []),
    ("name".toList, "GNU Go".toList), ("version".toList, "3.8".toList), ("known_command".toList, "true".toList), ("gomill-explain_last_move".toList, "ok\n]".toList),
    ("gomill-cpu_time".toList, "5".toList), ("gomill-describe_engine".toList, "Hello".toList), ("quit".toList, "?not now".toList)]

/-- The world: two engines, `b` and `w`. -/
def exampleWorld (b w : String) : JobWorld Table where
  channel := tableChannel
  spawn := fun p => if p.args = ["b".toList] then .ok (simpleEngine b, none) else if p.args = ["w".toList] then .ok (simpleEngine w, none) else .error "No such file".toList
  rusage := fun _ => some (1/2)
  osEnviron := [("PATH".toList, "/bin".toList)]
  canOpen := fun _ => true
  canMakeDir := fun _ => true
  isTwo := fun s => s = "2".toList
  float := fun _ => none
  cpuFloat := fun s => if s = "5".toList then some 5 else none
  replaceBad := fun _ => "?".toList
  strFloat := fun _ => "6.5".toList
  twoPlaces := fun q => if q = 5 then "5.00".toList else "0.50".toList
  excText := fun e => match e with | .backend 0 => "failure response".toList | _ => "channel error".toList
  now := "2012-01-01 10:00".toList
  version := "0.8".toList
  date := "2012-01-01".toList
  E := exampleEncodings
  F := exampleFloats

/-- A job. -/
def exampleJob : GameJob Nat where
  gameId := "g1".toList
  player := fun c => match c with
    | .b => { code := "one".toList, cmdArgs := ["b".toList] }
    | .w => { code := "two".toList, cmdArgs := ["w".toList], nameFromGtp := false, discardStderr := true }
  boardSize := 3
  komi := 13/2
  moveLimit := 20
  gameData := 7
  sgfFilename := some "g1.sgf".toList
  sgfDirname := some "games".toList
  voidSgfDirname := some "void".toList
  sgfEvent := some "test".toList
  stderrPathname := some "err".toList


/-- Whether a job ended with an exception other than JobFailed. -/
def JobOut.isCrashed : JobOut δ → Bool
  | .crashed => true
  | _ => false

/-- The game of the example, before closing the engines. -/
def exampleJobGame (b w : String) : GtpGame Table Unit :=
  let W := exampleWorld b w
  let gc : GC Table := { ctl := fun c => Ctl.init (simpleEngine (match c with | .b => b | .w => w), none) [], code := fun c => (exampleJob.player c).code, lateErrors := [], cautious := false }
  let g := GtpGame.init (jobCfg W exampleJob) gc () (some 20) (some "g1".toList)
  ((playGame W exampleJob 20 g).map Prod.snd).getD g

/-- The engine descriptions. -/
def exampleEngine (_ : Colour) : EngineDesc where
  rawName := some "GNU Go".toList
  name := some "GNU Go".toList
  rawVersion := some "3.8".toList
  version := some "3.8".toList
  cleanVersion := some "3.8".toList
  description := some "Hello".toList

theorem exampleTidy : TidyJob (exampleWorld "B2" "resign") exampleJob exampleEngine where
  gameId := ⟨by decide +kernel, by decide +kernel⟩
  code := by intro c; cases c <;> exact ⟨by decide +kernel, by decide +kernel⟩
  event := by intro s h; cases h; exact ⟨by decide +kernel, by decide +kernel⟩
  name := fun s h => nomatch h
  note := fun s h => nomatch h
  short := by
    intro c s h
    have h' : some "GNU Go:3.8".toList = some s := (by cases c <;> decide +kernel : some "GNU Go:3.8".toList = (exampleEngine c).short).trans h
    cases h'; decide +kernel
  long := by
    intro c s h
    have h' : some "Hello".toList = some s := (by cases c <;> decide +kernel : some "Hello".toList = (exampleEngine c).long).trans h
    cases h'; exact ⟨by decide +kernel, by decide +kernel⟩
  now := ⟨by decide +kernel, by decide +kernel⟩
  places := by
    intro q
    show Tidy (if q = 5 then "5.00".toList else "0.50".toList)
    split <;> exact ⟨by decide +kernel, by decide +kernel⟩
  version := by decide +kernel
  date := by decide +kernel

theorem exampleGame_moves : (exampleJobGame "B2" "resign").runner.moves = [(.b, some (1, 1), some "ok\n]".toList)] := by decide +kernel

theorem exampleGame_final : (exampleJobGame "B2" "resign").runner.finalDiagnostics = some (.w, "ok\n]".toList) := by decide +kernel

theorem exampleGame_stones : (exampleJobGame "B2" "resign").runner.handicapStones = none := by decide +kernel

/-- C69: non-vacuity: a game satisfying the hypotheses of the theorems above, and its SGF file. -/
theorem C69_witness :
    Recorded (exampleWorld "B2" "resign") exampleJob exampleEngine exampleIsFloat (exampleJobGame "B2" "resign") ∧
    (runJob (exampleWorld "B2" "resign") exampleJob none 20).map (fun x => written x.2.trace) =
      some [("games/g1.sgf".toList, ("(;FF[4]AP[gomill:0.8]\nC[Event: test\nGame id g1\nDate 2012-01-01 10:00\nResult one beat two B+R\n" ++
        "one cpu time: 5.00s\ntwo cpu time: 5.00s\nBlack one Hello\nWhite two Hello]\n" ++
        "CA[UTF-8]DT[2012-01-01]EV[test]GM[1]GN[g1]KM[6.5]PB[GNU Go:3.8]PW[two]RE[B+R]\nSZ[3];B[bb]\n" ++
        "C[ok\n\\]\n\nfinal message from w: <<<\nok\n\\]\n>>>\n\none beat two B+R\n\nfailure response from 'quit' to player one:\nnot now\n" ++
        "failure response from 'quit' to player two:\nnot now]\n)\n").toList)] := by
  refine ⟨⟨exampleNames, ⟨by decide +kernel, rfl⟩, exampleFloats_ok, exampleTidy, ⟨⟨by decide +kernel, by decide +kernel⟩, ?_, ?_, ?_, ?_, ?_, ?_⟩, ⟨?_, ?_⟩, ?_, ?_, ?_⟩, by decide +kernel⟩
  · exact Or.inr (Or.inl (by decide +kernel))
  · intro x hx p hp
    rw [exampleGame_moves] at hx
    simp only [List.mem_singleton] at hx
    subst hx
    cases hp
    exact ⟨by decide +kernel, by decide +kernel⟩
  · intro x hx s hs
    rw [exampleGame_moves] at hx
    simp only [List.mem_singleton] at hx
    subst hx
    cases hs
    decide +kernel
  · intro c s h
    rw [exampleGame_final] at h
    cases h
    decide +kernel
  · intro res h
    have := congrArg (Option.map Res.sgfResult) h
    have h0 : (exampleJobGame "B2" "resign").runner.result.map Res.sgfResult = some "B+R".toList := by decide +kernel
    rw [h0] at this
    simp only [Option.map_some, Option.some.injEq] at this
    rw [← this]
    decide +kernel
  · intro p hp
    rw [exampleGame_stones] at hp
    cases hp
  · intro r h
    have h0 : (exampleJobGame "B2" "resign").result.map (fun r => (r.describe, r.playerB, r.playerW)) = some ("one beat two B+R".toList, "one".toList, "two".toList) := by decide +kernel
    rw [h] at h0
    simp only [Option.map_some, Option.some.injEq, Prod.mk.injEq] at h0
    rw [h0.1, h0.2.1, h0.2.2]
    exact ⟨⟨by decide +kernel, by decide +kernel⟩, ⟨by decide +kernel, by decide +kernel⟩, ⟨by decide +kernel, by decide +kernel⟩⟩
  · intro f c s h
    have h0 : (exampleJobGame "B2" "resign").playerScores.isSome = false := by decide +kernel
    rw [h] at h0
    cases h0
  · intro h hh
    have h0 : (exampleJobGame "B2" "resign").runner.haProp = none := by decide +kernel
    rw [h0] at hh
    cases hh
  · decide +kernel
  · intro c
    cases c <;> decide +kernel

/-- C69: why the texts must be UTF-8: here Black's failure response to genmove is not. The game is a forfeit, but `run` raises an exception (not
JobFailed), because the root comment can't be read back; the result of the game is lost. -/
theorem C69_not_utf8 : (runJob (exampleWorld "?\xff" "resign") exampleJob none 20).map (fun x => (JobOut.isCrashed x.1, written x.2.trace)) = some (true, []) := by
  decide +kernel

/-- C69: the record of a game which was aborted because of a GtpChannelError. -/
theorem C69_void_witness :
    (runJob (exampleWorld "B2" "!gone") exampleJob none 20).map (fun x => written x.2.trace) =
      some [("void/g1.sgf".toList, ("(;FF[4]AP[gomill:0.8]\nC[Event: test\nGame id g1\nDate 2012-01-01 10:00\nBlack one Hello\nWhite two Hello]\n" ++
        "CA[UTF-8]DT[2012-01-01]EV[test]GM[1]GN[g1]KM[6.5]PB[GNU Go:3.8]PW[two]RE[Void]\nSZ[3];B[bb]\n" ++
        "C[ok\n\\]\n\naborting game due to error:\nchannel error\n\nfailure response from 'quit' to player one:\nnot now]\n)\n").toList)] := by
  decide +kernel

end Gomill.Gtp
