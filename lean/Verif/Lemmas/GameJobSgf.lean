import Verif.Spec.GameJob
import Verif.Props.SgfRunner
/-
Lemmas for C69: annotating an SGF game.
-/
namespace Gomill.Gtp
open Py
open Gomill.Sgf
open Spec

variable {E : Encodings} {F : Floats}

/-! ### Texts -/

theorem normText_append (simple : Bool) : ∀ {a b : Str}, '\r' ∉ a → b.head? ≠ some '\r' → normText simple (a ++ b) = normText simple a ++ normText simple b
  | [], b, _, _ => by simp [normText, newlineSub]
  | c :: a, b, ha, hb => by
    have hc : c ≠ '\r' := fun h => ha (by simp [h])
    have ha' : '\r' ∉ a := fun h => ha (List.mem_cons_of_mem _ h)
    have ih := normText_append simple ha' hb
    unfold normText at ih ⊢
    by_cases hn : c = '\n'
    · subst hn
      have h1 : LineBreak ['\n'] a := .lf (fun h => ha' (List.mem_of_head? h))
      have h2 : LineBreak ['\n'] (a ++ b) := .lf (by
        cases a with
        | nil => exact hb
        | cons x a => intro h; exact ha' (by simp at h; simp [h]))
      have e1 := newlineSub_break h1
      have e2 := newlineSub_break h2
      simp only [List.singleton_append] at e1 e2
      rw [List.cons_append, e1, e2]
      simp only [List.map_cons, List.cons_append, ih]
    · rw [List.cons_append, newlineSub_char hn hc, newlineSub_char hn hc]
      simp only [List.map_cons, List.cons_append, ih]

/-- The characters of a normalised text. -/
theorem normalised_chars {s t : Str} (h : Normalised false s t) : ∀ c ∈ t, c ≠ '\r' ∧ spaceFor c = c := by
  induction h with
  | nil => simp
  | lineBreak _ _ ih =>
    intro c hc
    rcases List.mem_cons.1 hc with rfl | hc
    · decide
    · exact ih c hc
  | @char c s t h1 h2 _ ih =>
    intro d hd
    rcases List.mem_cons.1 hd with rfl | hd
    · unfold spaceFor
      split
      · decide
      · rename_i h; exact ⟨h2, rfl⟩
    · exact ih d hd

theorem normText_fixed {t : Str} (h : ∀ c ∈ t, c ≠ '\r' ∧ spaceFor c = c) : normText false t = t :=
  normText_id (fun c hc => ⟨(h c hc).1, (h c hc).2, fun h => by cases h⟩)

theorem blank_fixed : normText false "\n\n".toList = "\n\n".toList := by decide +kernel

theorem join_snoc (sep : Str) : ∀ (l : List Str) (x : Str), l ≠ [] → join sep (l ++ [x]) = join sep l ++ sep ++ x
  | [], _, h => absurd rfl h
  | [a], x, _ => rfl
  | a :: b :: l, x, _ => by
    have := join_snoc sep (b :: l) x (by simp)
    simp only [List.cons_append, join] at this ⊢
    rw [this]
    simp [List.append_assoc]

theorem join_fixed {ts : List Str} (h : ∀ t ∈ ts, ∀ c ∈ t, c ≠ '\r' ∧ spaceFor c = c) : ∀ c ∈ join "\n\n".toList ts, c ≠ '\r' ∧ spaceFor c = c := by
  have hb : ∀ c ∈ "\n\n".toList, c ≠ '\r' ∧ spaceFor c = c := by decide +kernel
  induction ts with
  | nil => simp [join]
  | cons a l ih =>
    cases l with
    | nil => exact h a (by simp)
    | cons b l =>
      intro c hc
      simp only [join, List.mem_append] at hc
      rcases hc with (hc | hc) | hc
      · exact h a (by simp) c hc
      · exact hb c hc
      · exact ih (fun t ht => h t (List.mem_cons_of_mem _ ht)) c hc

theorem forall₂_fixed {texts ts : List Str} (h : List.Forall₂ (Normalised false) texts ts) : ∀ t ∈ ts, ∀ c ∈ t, c ≠ '\r' ∧ spaceFor c = c := by
  induction h with
  | nil => simp
  | cons h1 _ ih =>
    intro t ht
    rcases List.mem_cons.1 ht with rfl | ht
    · exact normalised_chars h1
    · exact ih t ht

theorem Says.congr {P : Presenter} {texts : List Str} {m m' : PropMap} (h : Says P texts m) (he : lookup m' ['C'] = lookup m ['C']) : Says P texts m' :=
  ⟨fun h0 => by rw [he]; exact h.1 h0, fun h0 => by rw [nodeGet_congr he]; exact h.2 h0⟩

/-- Normalising an addition to a comment. -/
theorem append_normalised {t s u : Str} (ht : ∀ c ∈ t, c ≠ '\r' ∧ spaceFor c = c) (hs : s.head? ≠ some '\r')
    (h : Normalised false (t ++ "\n\n".toList ++ s) u) : u = t ++ "\n\n".toList ++ normText false s := by
  rw [normalised_eq h, normText_append false ?_ hs, normText_append false (fun h => (ht _ h).1 rfl) (by decide), normText_fixed ht, blank_fixed]
  intro hm
  rcases List.mem_append.1 hm with hm | hm
  · exact (ht _ hm).1 rfl
  · revert hm; decide +kernel

/-- `add_comment_text`, when the comment is known. -/
theorem says_add {P : Presenter} (hT : StandardTypes P) (hu : P.codec = utf8Codec) (h1 : 1 ≤ P.size) (h2 : P.size ≤ 25) {isFloat : Rat → Prop}
    (hF : FloatsOK P.floats isFloat) {texts : List Str} {m : PropMap} (h : Says P texts m) {s : Str} (hs : Tidy s) :
    (addCommentText P m s).2 = .ok () ∧ Says P (texts ++ [s]) (addCommentText P m s).1 := by
  have hC : AsciiCompatible P.codec := by rw [hu]; exact utf8_ok
  have henc : ∀ s, Encodable P s := fun s => ⟨s, by rw [hu]; rfl⟩
  have hcc := C51_comment P hT h1 h2 hC isFloat hF m s hs.1
  have hh : s.head? ≠ some '\r' := fun h => hs.2 (List.mem_of_head? h)
  by_cases h0 : texts = []
  · subst h0
    obtain ⟨a1, t, a2, a3⟩ := hcc.1 (h.1 rfl) (henc _)
    exact ⟨a1, by simp, fun _ => ⟨[t], .cons a3 .nil, a2⟩⟩
  · obtain ⟨ts, b1, b2⟩ := h.2 h0
    obtain ⟨a1, t, a2, a3⟩ := hcc.2 _ b2 (comment_valid hT hu b2) (henc _)
    refine ⟨a1, by simp, fun _ => ⟨ts ++ [normText false s], List.rel_append b1 (.cons (normalised_normText _ _ _ (Nat.le_refl _)) .nil), ?_⟩⟩
    have hts : ts ≠ [] := by
      rintro rfl
      cases b1
      exact h0 rfl
    rw [a2, append_normalised (join_fixed (forall₂_fixed b1)) hh a3, join_snoc _ _ _ hts]

/-- Setting the root comment: the notes, and then what was there. -/
theorem says_notes {P : Presenter} (hT : StandardTypes P) (hu : P.codec = utf8Codec) (h1 : 1 ≤ P.size) (h2 : P.size ≤ 25) {isFloat : Rat → Prop}
    (hF : FloatsOK P.floats isFloat) {texts : List Str} {m : PropMap} (h : Says P texts m) {s v : Str} (hs : Tidy s)
    (hv : texts = [] ∧ v = s ∨ ∃ e, nodeGet P m ['C'] = .ok (.str e) ∧ v = s ++ "\n\n".toList ++ e) (h0 : texts = [] → v = s) :
    (nodeSet P m ['C'] (.str v)).2 = .ok () ∧ Says P (s :: texts) (nodeSet P m ['C'] (.str v)).1 := by
  have hC : AsciiCompatible P.codec := by rw [hu]; exact utf8_ok
  have henc : ∀ s, Encodable P s := fun s => ⟨s, by rw [hu]; rfl⟩
  have hok : (nodeSet P m ['C'] (.str v)).2 = .ok () := by
    rw [(C50_set_iff P h1 h2 m _ _).1]
    exact ⟨⟨by decide, by decide, by decide⟩, .text, effectiveType_of hT.c, henc _, fun h => by simp at h⟩
  have hval : utf8Valid v = true := by
    rcases hv with ⟨_, rfl⟩ | ⟨e, he, rfl⟩
    · exact hs.1
    · exact utf8Valid_concat _ _ _ (Nat.le_refl _) (utf8Valid_concat _ _ _ (Nat.le_refl _) hs.1 (by decide +kernel)) (comment_valid hT hu he)
  obtain ⟨⟨v', e1, e2⟩, _⟩ := C50_set_get P h1 h2 hC isFloat hF m ['C'] (.str v) hval .text (effectiveType_of hT.c) hok
  cases v' <;> simp only [Reads] at e2
  rename_i t
  refine ⟨hok, by simp, fun _ => ?_⟩
  by_cases hx : texts = []
  · subst hx
    rw [h0 rfl] at e2
    exact ⟨[t], .cons e2 .nil, e1⟩
  · obtain ⟨ts, b1, b2⟩ := h.2 hx
    rcases hv with ⟨h3, _⟩ | ⟨e, he, rfl⟩
    · exact absurd h3 hx
    · rw [b2] at he
      cases he
      have hfix := join_fixed (forall₂_fixed b1)
      refine ⟨normText false s :: ts, .cons (normalised_normText _ _ _ (Nat.le_refl _)) b1, ?_⟩
      rw [e1, normalised_eq e2, normText_append false ?_ ?_, normText_append false hs.2 (by decide), normText_fixed hfix, blank_fixed]
      · cases ts with
        | nil => cases b1; exact absurd rfl hx
        | cons a l => rfl
      · intro hm
        rcases List.mem_append.1 hm with hm | hm
        · exact hs.2 hm
        · revert hm; decide +kernel
      · intro hm
        exact (hfix _ (List.mem_of_head? hm)).1 rfl

/-! ### Annotated games -/

/-- The properties which annotations may change. -/
def annotKeys : List Str := [['G', 'N'], ['E', 'V'], ['P', 'B'], ['P', 'W'], ['C'], ['R', 'E']]

/-- The state of annotating the game `g`: `root0 :: nodes0` is the main sequence from the beginning, `root :: nodes` the present one; `mc` are the moves' comments;
`pre` are the texts put before the root comment, and `lt` those of the last node. -/
structure Annot (E : Encodings) (F : Floats) (L0 : Lib) (g : GameRec) (root0 : PropMap) (nodes0 : List PropMap) (mc : List (Option Str)) (L : Lib)
    (root : PropMap) (nodes : List PropMap) (pre lt : List Str) : Prop where
  pos : At E F L0 L g (root :: nodes)
  same : List.Forall₂ SameMoves (root0 :: nodes0) (root :: nodes)
  mids : List.Forall₂ (Comment g.presenter) mc.dropLast nodes.dropLast
  others : ∀ k, k ∉ annotKeys → lookup root k = lookup root0 k
  rootC : Says g.presenter (pre ++ (if nodes = [] then lt else [])) root
  lastC : nodes ≠ [] → ∃ m, nodes.getLast? = some m ∧ Says g.presenter lt m

/-- What is assumed of the game. -/
structure Usual (F : Floats) (isFloat : Rat → Prop) (g : GameRec) (n : Nat) : Prop where
  size : 2 ≤ n ∧ n ≤ 25
  presenter : g.presenter = Presenter.new n utf8Codec F
  floats : FloatsOK F isFloat

section
variable {isFloat : Rat → Prop} {g : GameRec} {n : Nat}

theorem Usual.types (u : Usual F isFloat g n) : StandardTypes g.presenter := by rw [u.presenter]; exact C50_standard _ _ _
theorem Usual.codec (u : Usual F isFloat g n) : g.presenter.codec = utf8Codec := by rw [u.presenter]; rfl
theorem Usual.h1 (u : Usual F isFloat g n) : 1 ≤ g.presenter.size := by
  rw [u.presenter]; show (1 : Int) ≤ (n : Int); have := u.size; omega
theorem Usual.h2 (u : Usual F isFloat g n) : g.presenter.size ≤ 25 := by
  rw [u.presenter]; show (n : Int) ≤ 25; have := u.size; omega
theorem Usual.fl (u : Usual F isFloat g n) : FloatsOK g.presenter.floats isFloat := by rw [u.presenter]; exact u.floats

/-- Setting one of the text properties of the root. -/
theorem Annot.set (u : Usual F isFloat g n) {L0 L : Lib} {root0 root : PropMap} {nodes0 nodes : List PropMap} {mc : List (Option Str)} {pre lt : List Str}
    (h : Annot E F L0 g root0 nodes0 mc L root nodes pre lt) (ident : Str) (hid : ident ∈ [['G', 'N'], ['E', 'V'], ['P', 'B'], ['P', 'W'], ['R', 'E']])
    (v : Option Str) (hv : ∀ s, v = some s → utf8Valid s = true) :
    ∃ L' root', L.setRootMaybe g ident (v.map .str) = .ok L' ∧ Annot E F L0 g root0 nodes0 mc L' root' nodes pre lt ∧
      (∀ k, k ≠ ident → lookup root' k = lookup root k) ∧ (v = none → lookup root' ident = lookup root ident) ∧
      (∀ s, v = some s → ∃ t, nodeGet g.presenter root' ident = .ok (.str t) ∧ Normalised true s t) := by
  have hF := u.floats.chars
  have hC : AsciiCompatible g.presenter.codec := by rw [u.codec]; exact utf8_ok
  have henc : ∀ s, Encodable g.presenter s := fun s => ⟨s, by rw [u.codec]; rfl⟩
  have hvalid : ValidIdent ident := by
    simp only [List.mem_cons, List.not_mem_nil, or_false] at hid
    rcases hid with rfl | rfl | rfl | rfl | rfl <;> exact ⟨by decide, by decide, by decide⟩
  have htype : g.presenter.lookupType ident = some .simpletext := by
    rw [u.presenter]
    simp only [List.mem_cons, List.not_mem_nil, or_false] at hid
    rcases hid with rfl | rfl | rfl | rfl | rfl <;> rfl
  have hsz : ident ≠ ['S', 'Z'] := by rintro rfl; revert hid; decide
  have hne : ident ≠ ['C'] := by rintro rfl; revert hid; decide
  have hmk : ident ∉ moveKeys := by
    simp only [List.mem_cons, List.not_mem_nil, or_false] at hid
    rcases hid with rfl | rfl | rfl | rfl | rfl <;> decide
  have hak : ident ∈ annotKeys := by
    simp only [List.mem_cons, List.not_mem_nil, or_false] at hid
    rcases hid with rfl | rfl | rfl | rfl | rfl <;> decide
  obtain ⟨L', e1, e2⟩ := h.pos.setMaybe hF u.h1 u.h2 ident hvalid hsz htype (v.map .str) (by
    intro x hx
    cases v with
    | none => cases hx
    | some s => cases hx; exact henc _)
  have hfr := lookup_setMaybe g.presenter root ident (v.map .str)
  refine ⟨L', _, e1, ⟨e2, ?_, h.mids, ?_, Says.congr h.rootC (hfr _ (Ne.symm hne)), h.lastC⟩, hfr, ?_, ?_⟩
  · cases h.same with
    | cons a b =>
      refine .cons ?_ b
      intro k hk
      have hki : k ≠ ident := fun e => hmk (e ▸ hk)
      rw [a k hk, find_eq_lookup, find_eq_lookup, hfr k hki]
  · intro k hk
    rw [hfr k (fun e => hk (e ▸ hak)), h.others k hk]
  · rintro rfl; rfl
  · rintro s rfl
    obtain ⟨v', x1, x2⟩ := get_setMaybe u.h1 u.h2 hC isFloat u.fl root ident hvalid hsz htype (.str s) (henc _) (hv s rfl)
    cases v' <;> simp only [Reads] at x2
    exact ⟨_, x1, x2⟩

theorem c_notMove {m m' : PropMap} (h : ∀ k, k ≠ ['C'] → lookup m' k = lookup m k) : SameMoves m m' := by
  intro k hk
  rw [find_eq_lookup, find_eq_lookup, h k]
  rintro rfl
  exact absurd hk (by decide)

theorem sameMoves_trans {a b c : PropMap} (h1 : SameMoves a b) (h2 : SameMoves b c) : SameMoves a c := fun k hk => (h1 k hk).trans (h2 k hk)

/-- Adding a text to the comment of the last node. -/
theorem Annot.add (u : Usual F isFloat g n) {L0 L : Lib} {root0 root : PropMap} {nodes0 nodes : List PropMap} {mc : List (Option Str)} {pre lt : List Str}
    (h : Annot E F L0 g root0 nodes0 mc L root nodes pre lt) (s : Option Str) (hs : ∀ x, s = some x → Tidy x) :
    ∃ L' root' nodes', addLastComment L g s = .ok L' ∧ Annot E F L0 g root0 nodes0 mc L' root' nodes' pre (lt ++ s.toList) ∧
      (∀ k, k ≠ ['C'] → lookup root' k = lookup root k) ∧ (nodes' = [] ↔ nodes = []) := by
  cases s with
  | none => exact ⟨L, root, nodes, rfl, by simpa using h, fun _ _ => rfl, Iff.rfl⟩
  | some s =>
    have hF := u.floats.chars
    have hst := hs s rfl
    rcases List.eq_nil_or_concat nodes with rfl | ⟨i, m, hc⟩
    · have hsay := h.rootC
      rw [if_pos rfl] at hsay
      obtain ⟨a1, a2⟩ := says_add u.types u.codec u.h1 u.h2 u.fl hsay hst
      obtain ⟨L', e1, e2⟩ := At.last (seq := []) hF h.pos (.addCommentText s) a1
      have hfr : ∀ k, k ≠ ['C'] → lookup (addCommentText g.presenter root s).1 k = lookup root k := fun k hk =>
        C51_frame g.presenter root (.addCommentText s) k (by simpa [NodeOp.Touches] using hk)
      refine ⟨L', _, [], e1, ⟨e2, ?_, h.mids, ?_, ?_, fun h => absurd rfl h⟩, hfr, Iff.rfl⟩
      · cases h.same with
        | cons a b => exact .cons (sameMoves_trans a (c_notMove hfr)) b
      · intro k hk
        rw [← h.others k hk]
        exact hfr k (by rintro rfl; exact hk (by decide))
      · rw [if_pos rfl, ← List.append_assoc]
        exact a2
    · rw [List.concat_eq_append] at hc
      subst hc
      have hne : i ++ [m] ≠ [] := by simp
      obtain ⟨m', b1, b2⟩ := h.lastC hne
      have : m' = m := by simpa using b1.symm
      subst this
      obtain ⟨a1, a2⟩ := says_add u.types u.codec u.h1 u.h2 u.fl b2 hst
      obtain ⟨L', e1, e2⟩ := At.last (seq := root :: i) hF (by simpa using h.pos) (.addCommentText s) a1
      have hfr : ∀ k, k ≠ ['C'] → lookup (addCommentText g.presenter m' s).1 k = lookup m' k := fun k hk =>
        C51_frame g.presenter m' (.addCommentText s) k (by simpa [NodeOp.Touches] using hk)
      refine ⟨L', root, i ++ [(addCommentText g.presenter m' s).1], e1, ⟨by simpa [NodeOp.apply] using e2, ?_, ?_, h.others, ?_, ?_⟩, fun _ _ => rfl, by simp⟩
      · obtain ⟨x, y, e⟩ : ∃ x y, root0 :: nodes0 = x ++ [y] := by
          rcases List.eq_nil_or_concat (root0 :: nodes0) with h | ⟨x, y, h⟩
          · cases h
          · exact ⟨x, y, by rw [h, List.concat_eq_append]⟩
        have hsame := h.same
        rw [e, ← List.cons_append] at hsame ⊢
        have hlen := hsame.length_eq
        obtain ⟨p, q⟩ := forall₂_snoc hsame
        exact List.rel_append p (.cons (sameMoves_trans q (c_notMove hfr)) .nil)
      · have := h.mids
        rw [List.dropLast_concat] at this ⊢
        exact this
      · have := h.rootC
        rw [if_neg (by simp)] at this ⊢
        exact this
      · intro _
        exact ⟨_, by simp, a2⟩
where
  forall₂_snoc {x : List PropMap} {y : PropMap} {x' : List PropMap} {y' : PropMap} (h : List.Forall₂ SameMoves (x ++ [y]) (x' ++ [y'])) :
      List.Forall₂ SameMoves x x' ∧ SameMoves y y' := by
    have hl : x.length = x'.length := by have := h.length_eq; simpa using this
    have h1 := List.forall₂_take x.length h
    have h2 := List.forall₂_drop x.length h
    rw [List.take_left, hl, List.take_left] at h1
    rw [List.drop_left, hl, List.drop_left] at h2
    cases h2 with
    | cons a _ => exact ⟨h1, a⟩

/-- Setting the root comment. -/
theorem Annot.notes (u : Usual F isFloat g n) {L0 L : Lib} {root0 root : PropMap} {nodes0 nodes : List PropMap} {mc : List (Option Str)} {lt : List Str}
    (h : Annot E F L0 g root0 nodes0 mc L root nodes [] lt) (notes : List Str) (hne : notes ≠ []) (hs : Tidy (join ['\n'] notes)) :
    ∃ L' root', setRootComment L g notes = .ok L' ∧ Annot E F L0 g root0 nodes0 mc L' root' nodes [join ['\n'] notes] lt ∧
      (∀ k, k ≠ ['C'] → lookup root' k = lookup root k) := by
  have hF := u.floats.chars
  have hroot := h.pos.root_props
  have hsay := h.rootC
  rw [List.nil_append] at hsay
  -- the new value
  obtain ⟨v, hv1, hv2, hv3⟩ : ∃ v, setRootComment L g notes = L.setRootMaybe g ['C'] (some (.str v)) ∧
      ((if nodes = [] then lt else []) = [] ∧ v = join ['\n'] notes ∨
        ∃ e, nodeGet g.presenter root ['C'] = .ok (.str e) ∧ v = join ['\n'] notes ++ "\n\n".toList ++ e) ∧
      ((if nodes = [] then lt else []) = [] → v = join ['\n'] notes) := by
    unfold setRootComment
    rw [hroot]
    by_cases h0 : (if nodes = [] then lt else []) = []
    · have := hsay.1 h0
      rw [if_neg (by rw [has_iff, this]; simp)]
      exact ⟨_, rfl, Or.inl ⟨h0, rfl⟩, fun _ => rfl⟩
    · obtain ⟨ts, _, b⟩ := hsay.2 h0
      rw [if_pos]
      · rw [b]
        refine ⟨_, rfl, Or.inr ⟨_, rfl, ?_⟩, fun h => absurd h h0⟩
        rw [show notes ++ [[], join "\n\n".toList ts] = (notes ++ [[]]) ++ [join "\n\n".toList ts] from by simp, join_snoc _ _ _ (by simp),
          join_snoc _ _ _ hne]
        simp
      · rw [has_iff]
        cases hl : lookup root ['C'] with
        | none => rw [nodeGet_absent hl] at b; cases b
        | some x => simp
  obtain ⟨a1, a2⟩ := says_notes u.types u.codec u.h1 u.h2 u.fl hsay hs hv2 hv3
  obtain ⟨L', e1, e2⟩ := h.pos.root hF (.set ['C'] (.str v)) a1
  have hfr : ∀ k, k ≠ ['C'] → lookup (nodeSet g.presenter root ['C'] (.str v)).1 k = lookup root k := fun k hk =>
    C51_frame g.presenter root (.set ['C'] (.str v)) k (by simpa [NodeOp.Touches] using hk)
  refine ⟨L', _, ?_, ⟨e2, ?_, h.mids, ?_, ?_, h.lastC⟩, hfr⟩
  · rw [hv1]; exact e1
  · cases h.same with
    | cons a b => exact .cons (sameMoves_trans a (c_notMove hfr)) b
  · intro k hk
    rw [← h.others k hk]
    exact hfr k (by rintro rfl; exact hk (by decide))
  · exact a2

end

end Gomill.Gtp
