import Verif.Spec.Sgf
import Verif.Lemmas.Text
/-
Lemmas about the SGF tokeniser and serialiser.
-/
namespace Gomill.Sgf

open Py

theorem isUp_iff {c : Char} : isUp c = true ↔ 'A' ≤ c ∧ c ≤ 'Z' := by simp [isUp]

theorem isValidIdent_iff (s : Str) : isValidIdent s = true ↔ ValidIdent s := by
  simp [isValidIdent, ValidIdent, isUp_iff, and_assoc]

theorem isValidValue_iff (s : Str) : isValidValue s = true ↔ ValidValue s := by
  constructor
  · intro h
    fun_induction isValidValue s with
    | case1 => exact .nil
    | case2 => simp at h
    | case3 c r ih => exact .escaped (ih h)
    | case4 => simp at h
    | case5 c r h1 h2 h3 ih =>
      refine .plain ?_ ?_ (ih h)
      · rintro rfl
        cases r with
        | nil => exact h1 rfl rfl
        | cons a b => exact h2 a b rfl rfl
      · rintro rfl; exact h3 rfl
  · intro h
    induction h with
    | nil => rfl
    | @plain c s h1 h2 _ ih =>
      rw [isValidValue]
      · exact ih
      · rintro rfl; exact absurd rfl h1
      · rintro a b rfl; exact absurd rfl h1
      · exact h2
    | @escaped c s _ ih => rw [isValidValue]; exact ih

/-! ### scanning one token -/

theorem isSpace_of_isLetter {c : Char} (h : isLetter c = true) : isSpace c = false := by
  have h1 : 65 ≤ c.toNat := by
    simp only [isLetter, isUp, isLow, Bool.or_eq_true, Bool.and_eq_true, decide_eq_true_eq] at h
    rcases h with ⟨h, _⟩ | ⟨h, _⟩
    · exact h
    · have : 97 ≤ c.toNat := h
      omega
  have key : ∀ d : Char, d.toNat < 65 → c ≠ d := by rintro d hd rfl; omega
  simp only [isSpace, Bool.or_eq_false_iff, decide_eq_false_iff_not]
  refine ⟨⟨⟨⟨⟨key _ ?_, key _ ?_⟩, key _ ?_⟩, key _ ?_⟩, ?_⟩, ?_⟩ <;> first | decide | omega

theorem nextToken_space {c : Char} {s : Str} (h : isSpace c = true) : nextToken (c :: s) = nextToken s := by
  unfold nextToken
  rw [List.dropWhile_cons_of_pos h]

theorem nextToken_spaces {w s : Str} (h : ∀ c ∈ w, isSpace c = true) : nextToken (w ++ s) = nextToken s := by
  induction w with
  | nil => rfl
  | cons c w ih =>
    rw [List.cons_append, nextToken_space (h c (by simp)), ih (fun d hd => h d (List.mem_cons_of_mem _ hd))]

theorem scanValue_append {v r : Str} (h : ValidValue v) : scanValue (v ++ ']' :: r) = some (v, r) := by
  induction h with
  | nil => simp [scanValue]
  | @plain c s h1 h2 _ ih =>
    rw [List.cons_append, scanValue]
    · rw [ih]; rfl
    · rintro rfl; exact absurd rfl h1
    · rintro a b rfl; exact absurd rfl h1
    · rintro rfl; exact absurd rfl h2
  | @escaped c s _ ih =>
    rw [List.cons_append, List.cons_append, scanValue, ih]; rfl

theorem nextToken_value {v r : Str} (h : ValidValue v) : nextToken ('[' :: (v ++ ']' :: r)) = some (.V v, r) := by
  unfold nextToken
  rw [List.dropWhile_cons_of_neg (by decide)]
  simp [scanValue_append h]

theorem scanIdent_append {n : Nat} {i r : Str} {c : Char} (hi : ∀ c ∈ i, isLetter c = true) (hn : i.length ≤ n)
    (hc : isLetter c = false) : scanIdent n (i ++ c :: r) = (i, c :: r) := by
  induction i generalizing n with
  | nil => cases n <;> simp [scanIdent, hc]
  | cons a i ih =>
    cases n with
    | zero => simp at hn
    | succ n =>
      rw [List.cons_append, scanIdent, if_pos (hi a (by simp)),
        ih (fun c hc => hi c (List.mem_cons_of_mem _ hc)) (by simpa using hn)]

theorem isLow_of_isUp {c : Char} (h : isUp c = true) : isLow c = false := by
  rw [isUp_iff] at h
  have h2 : c.toNat ≤ 90 := h.2
  simp only [isLow, Bool.and_eq_false_iff, decide_eq_false_iff_not]
  left
  intro h3
  have h3 : 97 ≤ c.toNat := h3
  omega

theorem nextToken_ident {i r : Str} (h : ValidIdent i) : nextToken (i ++ '[' :: r) = some (.I i, '[' :: r) := by
  obtain ⟨h1, h2, h3⟩ := h
  have hup : ∀ c ∈ i, isUp c = true := fun c hc => isUp_iff.2 (h3 c hc)
  have hlet : ∀ c ∈ i, isLetter c = true := fun c hc => by simp [isLetter, hup c hc]
  rcases i with _ | ⟨a, i⟩
  · simp at h1
  have ha := hlet a (by simp)
  unfold nextToken
  rw [List.cons_append, List.dropWhile_cons_of_neg (by simp [isSpace_of_isLetter ha])]
  simp only
  rw [if_neg (by rintro rfl; simp [isLetter, isUp, isLow] at ha), if_pos ha, ← List.cons_append,
    scanIdent_append hlet h2 (by decide)]
  simp only [Option.some.injEq, Prod.mk.injEq, Tok.I.injEq, and_true]
  rw [List.filter_eq_self]
  intro c hc
  simp [isLow_of_isUp (hup c hc)]

theorem nextToken_delim {c : Char} {r : Str} (h : c = ';' ∨ c = '(' ∨ c = ')') : nextToken (c :: r) = some (.D c, r) := by
  have hs : isSpace c = false := by rcases h with rfl | rfl | rfl <;> decide
  have hl : isLetter c = false := by rcases h with rfl | rfl | rfl <;> decide
  have hb : c ≠ '[' := by rcases h with rfl | rfl | rfl <;> decide
  unfold nextToken
  rw [List.dropWhile_cons_of_neg (by simp [hs])]
  simp only
  rw [if_neg hb, if_neg (by simp [hl]), if_pos h]

/-! ### sequences of tokens -/

/-- `ts` are the next tokens of `s`, and `r` is the input left after them. -/
inductive Lexes : List Tok → Str → Str → Prop
  | nil {s : Str} : Lexes [] s s
  | cons {t : Tok} {ts : List Tok} {s s' r : Str} : nextToken s = some (t, s') → Lexes ts s' r → Lexes (t :: ts) s r

theorem Lexes.space {ts : List Tok} {s r : Str} {c : Char} (hc : isSpace c = true) (h : Lexes ts s r) (hne : ts ≠ []) :
    Lexes ts (c :: s) r := by
  cases h with
  | nil => exact absurd rfl hne
  | cons h1 h2 => exact .cons (by rw [nextToken_space hc, h1]) h2

theorem Lexes.trans {ts us : List Tok} {s r q : Str} (h1 : Lexes ts s r) (h2 : Lexes us r q) : Lexes (ts ++ us) s q := by
  induction h1 with
  | nil => exact h2
  | cons h _ ih => exact .cons h (ih h2)

/-- The tokens of a property. -/
def propToks (p : Str × List Raw) : List Tok := .I p.1 :: p.2.map .V

theorem lexes_values {vs : List Raw} (h : ∀ v ∈ vs, ValidValue v) (r : Str) :
    Lexes (vs.map .V) ((vs.map (fun v => ['['] ++ v ++ [']'])).flatten ++ r) r := by
  induction vs with
  | nil => exact .nil
  | cons v vs ih =>
    refine .cons (s' := (vs.map (fun v => ['['] ++ v ++ [']'])).flatten ++ r) ?_
      (ih (fun w hw => h w (List.mem_cons_of_mem _ hw)))
    have := nextToken_value (r := (vs.map (fun v => ['['] ++ v ++ [']'])).flatten ++ r) (h v (by simp))
    simpa using this

theorem lexes_prop {p : Str × List Raw} (h1 : ValidIdent p.1) (h2 : p.2 ≠ []) (h3 : ∀ v ∈ p.2, ValidValue v) (r : Str) :
    Lexes (propToks p) (serProp p ++ r) r := by
  obtain ⟨i, vs⟩ := p
  rcases vs with _ | ⟨v, vs⟩
  · exact absurd rfl h2
  have := nextToken_ident (r := v ++ [']'] ++ (vs.map (fun v => ['['] ++ v ++ [']'])).flatten ++ r) h1
  refine .cons (s' := ((v :: vs).map (fun v => ['['] ++ v ++ [']'])).flatten ++ r) ?_ (lexes_values h3 r)
  simpa [serProp] using this

/-! ### pieces -/

/-- `s` is the concatenation of the pieces with some newlines added between them. -/
inductive Weave : List Str → Str → Prop
  | nil : Weave [] []
  | piece {p : Str} {ps : List Str} {s : Str} : Weave ps s → Weave (p :: ps) (p ++ s)
  | newline {ps : List Str} {s : Str} : Weave ps s → Weave ps ('\n' :: s)

theorem Weave.append {ps qs : List Str} {s t : Str} (h1 : Weave ps s) (h2 : Weave qs t) : Weave (ps ++ qs) (s ++ t) := by
  induction h1 with
  | nil => exact h2
  | piece _ ih => rw [List.append_assoc]; exact .piece ih
  | newline _ ih => exact .newline ih

theorem weave_flatten (ps : List Str) : Weave ps ps.flatten := by
  induction ps with
  | nil => exact .nil
  | cons p ps ih => exact .piece ih

theorem join_snoc {sep : Str} {l : List Str} (hl : l ≠ []) (x : Str) : join sep (l ++ [x]) = join sep l ++ sep ++ x := by
  induction l with
  | nil => exact absurd rfl hl
  | cons a r ih =>
    cases r with
    | nil => simp [join]
    | cons b r => rw [List.cons_append, List.cons_append, join, ← List.cons_append, ih (by simp), join]; simp

theorem join_snoc_append {sep : Str} (l : List Str) (x y : Str) : join sep (l ++ [x ++ y]) = join sep (l ++ [x]) ++ y := by
  by_cases hl : l = []
  · subst hl; rfl
  · rw [join_snoc hl, join_snoc hl]; simp

theorem blockStep_weave {w : Int} (ps : List Str) {done : List Str} {st : List Str × Str}
    (h : Weave done (join ['\n'] (st.1 ++ [st.2]))) :
    Weave (done ++ ps) (join ['\n'] ((ps.foldl (blockStep w) st).1 ++ [(ps.foldl (blockStep w) st).2])) := by
  induction ps generalizing done st with
  | nil => simpa using h
  | cons p ps ih =>
    rw [List.foldl_cons, show done ++ p :: ps = (done ++ [p]) ++ ps by simp]
    apply ih
    unfold blockStep
    simp only
    split
    · simp only [List.nil_append]
      rw [join_snoc (by simp), List.append_assoc]
      refine h.append ?_
      have : Weave [p] (p ++ []) := .piece .nil
      rw [List.append_nil] at this
      exact .newline this
    · rw [join_snoc_append]
      refine h.append ?_
      have : Weave [p] (p ++ []) := .piece .nil
      rwa [List.append_nil] at this

theorem blockFormat_weave (ps : List Str) {x : Str} (hx : x ≠ []) (w : Int) :
    Weave (ps ++ [x]) (blockFormat (ps ++ [x]) w) := by
  unfold blockFormat
  simp only
  rw [if_neg]
  · have := blockStep_weave (w := w) (ps ++ [x]) (done := []) (st := ([], [])) (by simpa [join] using Weave.nil)
    simpa using this
  · rw [List.foldl_append, List.foldl_cons, List.foldl_nil]
    unfold blockStep
    simp [hx]

/-- The recursive form of the pieces of a tree. -/
def CTree.pieces : CTree → List Str
  | .mk sq ch => ['('] :: (serSequence sq ++ piecesList ch ++ [[')']])
where
  piecesList : List CTree → List Str
    | [] => []
    | t :: ts => t.pieces ++ piecesList ts

def entryPieces : Option CTree → List Str
  | none => [[')']]
  | some t => t.pieces

def entrySteps : Option CTree → Nat
  | none => 1
  | some t => t.steps

theorem stepsList_eq (ch : List CTree) : CTree.steps.stepsList ch = ((ch.map some).map entrySteps).sum := by
  induction ch with
  | nil => rfl
  | cons t ts ih => simp only [CTree.steps.stepsList, List.map_cons, List.sum_cons, ih]; rfl

theorem piecesList_eq (ch : List CTree) : CTree.pieces.piecesList ch = (ch.map some).flatMap entryPieces := by
  induction ch with
  | nil => rfl
  | cons t ts ih => simp only [CTree.pieces.piecesList, List.map_cons, List.flatMap_cons, ih]; rfl

/-- The explicit stack of the serialiser computes the recursive form. -/
theorem serLoop_eq (fuel : Nat) (st : List (Option CTree)) (h : (st.map entrySteps).sum ≤ fuel) :
    serLoop fuel st = st.flatMap entryPieces := by
  induction fuel generalizing st with
  | zero =>
    rcases st with _ | ⟨_ | ⟨sq, ch⟩, st⟩
    · rfl
    · simp [entrySteps] at h
    · simp [entrySteps, CTree.steps] at h
  | succ fuel ih =>
    rcases st with _ | ⟨_ | ⟨sq, ch⟩, st⟩
    · rfl
    · simp only [List.map_cons, List.sum_cons, entrySteps] at h
      rw [serLoop, ih st (by omega)]; rfl
    · simp only [List.map_cons, List.sum_cons, entrySteps, CTree.steps, stepsList_eq] at h
      rw [serLoop, ih _ (by simp only [List.map_append, List.sum_append, List.map_cons, List.sum_cons, entrySteps]; omega)]
      simp only [List.flatMap_append, List.flatMap_cons, entryPieces, CTree.pieces, piecesList_eq]
      simp

theorem serialise_weave (t : CTree) (wrap : Option Int) : Weave (t.pieces ++ [['\n']]) (serialise t wrap) := by
  unfold serialise
  have : serLoop t.steps [some t] = t.pieces := by
    rw [serLoop_eq _ _ (by simp [entrySteps])]; simp [entryPieces]
  simp only [this]
  cases wrap with
  | none => exact weave_flatten _
  | some w => exact blockFormat_weave _ (by simp) w

/-! ### the tokens of a tree -/

def seqToks (sq : List PropMap) : List Tok := sq.flatMap (fun m => .D ';' :: (sortProps m).flatMap propToks)

def CTree.toks : CTree → List Tok
  | .mk sq ch => .D '(' :: (seqToks sq ++ toksList ch ++ [.D ')'])
where
  toksList : List CTree → List Tok
    | [] => []
    | t :: ts => t.toks ++ toksList ts

/-- Piece by piece lexing. -/
def PieceToks (p : Str) (ts : List Tok) : Prop := ts ≠ [] ∧ ∀ r, Lexes ts (p ++ r) r

inductive PiecesToks : List Str → List Tok → Prop
  | nil : PiecesToks [] []
  | cons {p : Str} {ps : List Str} {ts us : List Tok} : PieceToks p ts → PiecesToks ps us → PiecesToks (p :: ps) (ts ++ us)

theorem PiecesToks.append {ps qs : List Str} {ts us : List Tok} (h1 : PiecesToks ps ts) (h2 : PiecesToks qs us) :
    PiecesToks (ps ++ qs) (ts ++ us) := by
  induction h1 with
  | nil => exact h2
  | cons hp _ ih => rw [List.append_assoc]; exact .cons hp ih

theorem pieceToks_delim {c : Char} (h : c = ';' ∨ c = '(' ∨ c = ')') : PieceToks [c] [.D c] :=
  ⟨by simp, fun _ => .cons (nextToken_delim h) .nil⟩

theorem PiecesToks.single {p : Str} {ts : List Tok} (h : PieceToks p ts) : PiecesToks [p] ts := by
  have := PiecesToks.cons h .nil
  rwa [List.append_nil] at this

theorem insertProp_perm (x : Str × List Raw) (m : PropMap) : (insertProp x m).Perm (x :: m) := by
  induction m with
  | nil => exact .refl _
  | cons y r ih =>
    unfold insertProp
    split
    · exact .refl _
    · exact (ih.cons y).trans (.swap x y r)

theorem sortProps_perm (m : PropMap) : (sortProps m).Perm m := by
  unfold sortProps
  induction m with
  | nil => exact .refl _
  | cons x m ih => exact (insertProp_perm x _).trans (ih.cons x)

theorem piecesToks_props {m : PropMap} (h : ∀ p ∈ m, ValidIdent p.1 ∧ p.2 ≠ [] ∧ ∀ v ∈ p.2, ValidValue v) :
    PiecesToks (m.map serProp) (m.flatMap propToks) := by
  induction m with
  | nil => exact .nil
  | cons p m ih =>
    obtain ⟨h1, h2, h3⟩ := h p (by simp)
    refine .cons ⟨by simp [propToks], fun r => lexes_prop h1 h2 h3 r⟩ (ih fun q hq => h q (List.mem_cons_of_mem _ hq))

theorem piecesToks_sequence {sq : List PropMap} (h : ∀ m ∈ sq, ValidMap m) :
    PiecesToks (serSequence sq) (seqToks sq) := by
  unfold serSequence seqToks
  induction sq with
  | nil => exact .nil
  | cons m sq ih =>
    rw [List.flatMap_cons, List.flatMap_cons]
    refine .append ?_ (ih fun q hq => h q (List.mem_cons_of_mem _ hq))
    refine .cons (ts := [.D ';']) (pieceToks_delim (.inl rfl)) (piecesToks_props ?_)
    intro p hp
    have hp := (sortProps_perm m).mem_iff.1 hp
    have hm := h m (by simp)
    exact ⟨hm.idents p hp, hm.nonempty p hp, hm.values p hp⟩

theorem piecesToks_tree {t : CTree} (h : ValidTree t) : PiecesToks t.pieces t.toks := by
  induction h with
  | @mk sq ch _ hm _ ih =>
    unfold CTree.pieces CTree.toks
    refine .cons (ts := [.D '(']) (pieceToks_delim (.inr (.inl rfl))) ?_
    refine .append (.append (piecesToks_sequence hm) ?_) (.single (pieceToks_delim (.inr (.inr rfl))))
    clear hm
    induction ch with
    | nil => exact .nil
    | cons c ch ihc =>
      exact .append (ih c (by simp)) (ihc (fun d hd => ‹∀ c ∈ _, ValidTree c› d (List.mem_cons_of_mem _ hd)) (fun d hd => ih d (List.mem_cons_of_mem _ hd)))

/-- Lexing an interleaving of pieces with newlines. -/
theorem Weave.lexes {ps qs : List Str} {s : Str} {ts : List Tok} (h : Weave (ps ++ qs) s) (hp : PiecesToks ps ts) (r : Str) :
    ∃ s', Weave qs s' ∧ Lexes ts (s ++ r) (s' ++ r) := by
  generalize hl : ps ++ qs = l at h
  induction h generalizing ps ts with
  | nil =>
    obtain ⟨rfl, rfl⟩ : ps = [] ∧ qs = [] := by simpa using hl
    cases hp
    exact ⟨[], .nil, .nil⟩
  | @piece p l s hw ih =>
    cases hp with
    | nil => exact ⟨p ++ s, by simp at hl; rw [hl]; exact .piece hw, .nil⟩
    | @cons p' ps' ts us h1 h2 =>
      rw [List.cons_append, List.cons.injEq] at hl
      obtain ⟨rfl, hl⟩ := hl
      obtain ⟨s', hs', hlx⟩ := ih h2 hl
      refine ⟨s', hs', ?_⟩
      rw [List.append_assoc]
      exact (h1.2 _).trans hlx
  | @newline l s hw ih =>
    cases hp with
    | nil =>
      exact ⟨'\n' :: s, by simp at hl; rw [hl]; exact .newline hw, .nil⟩
    | cons h1 h2 =>
      obtain ⟨s', hs', hlx⟩ := ih (.cons h1 h2) hl
      refine ⟨s', hs', ?_⟩
      rw [List.cons_append]
      exact hlx.space (by decide) (by simp [h1.1])

end Gomill.Sgf
