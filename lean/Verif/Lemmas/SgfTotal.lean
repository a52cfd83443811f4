import Verif.Lemmas.SgfParse
import Mathlib.Tactic.Tauto
/-
Lemmas for the totality of the SGF parser, and for collections.
-/
namespace Gomill.Sgf

open Py

/-! ### finding the start, with junk before it -/

theorem atStart_iff {s : Str} : atStart s = true ↔ ∃ w b, (∀ c ∈ w, isSpace c = true) ∧ s = '(' :: (w ++ ';' :: b) := by
  constructor
  · intro h
    unfold atStart at h
    split at h
    · rename_i r
      split at h
      · rename_i b hr
        refine ⟨r.takeWhile isSpace, b, fun x hx => (List.all_eq_true.1 List.all_takeWhile) x hx, ?_⟩
        rw [← hr, List.takeWhile_append_dropWhile]
      · simp at h
    · simp at h
  · rintro ⟨w, b, hw, rfl⟩
    unfold atStart
    simp only
    rw [List.dropWhile_append_of_pos hw, List.dropWhile_cons_of_neg (by decide)]
    rfl

theorem findStart_eq_none {s : Str} (h : NoStart s) : findStart s = none := by
  induction s with
  | nil => rfl
  | cons c r ih =>
    rw [findStart, if_neg]
    · apply ih
      rintro a w b hw rfl
      exact h (c :: a) w b hw rfl
    · intro hs
      obtain ⟨w, b, hw, he⟩ := atStart_iff.1 hs
      exact h [] w b hw he

theorem findStart_junk {junk s : Str} (h : NoStart junk) (hs : ∀ c, (s.dropWhile isSpace).head? = some c → c ≠ ';') :
    findStart (junk ++ s) = findStart s := by
  induction junk with
  | nil => rfl
  | cons c r ih =>
    rw [List.cons_append, findStart, if_neg]
    · apply ih
      rintro a w b hw rfl
      exact h (c :: a) w b hw rfl
    · intro hst
      obtain ⟨w, b, hw, he⟩ := atStart_iff.1 hst
      rw [List.cons.injEq] at he
      obtain ⟨rfl, he⟩ := he
      rcases List.append_eq_append_iff.1 he with ⟨a', ha, hb⟩ | ⟨a', ha, hb⟩
      · -- r is a prefix of w
        have : s.dropWhile isSpace = ';' :: b := by
          rw [hb, List.dropWhile_append_of_pos (fun x hx => hw x (by rw [ha]; simp [hx])),
            List.dropWhile_cons_of_neg (by decide)]
        exact hs ';' (by rw [this]; rfl) rfl
      · rcases a' with _ | ⟨d, a'⟩
        · simp at hb ha
          have : s.dropWhile isSpace = ';' :: b := by
            rw [← hb, List.dropWhile_cons_of_neg (by decide)]
          exact hs ';' (by rw [this]; rfl) rfl
        · rw [List.cons_append, List.cons.injEq] at hb
          obtain ⟨rfl, hb⟩ := hb
          exact h [] w a' hw (by rw [ha]; rfl)

theorem parseGame_congr {s s' : Str} (h : findStart s = findStart s') : parseGame s = parseGame s' := by
  unfold parseGame tokenise
  rw [h]
  rcases findStart s' with _ | s0 <;> rfl

theorem parseGame_none {s : Str} (h : NoStart s) : parseGame s = .ok none := by
  unfold parseGame tokenise
  rw [findStart_eq_none h]
  rfl

theorem noStart_spaces {w s : Str} (hw : ∀ c ∈ w, c = '\n') (h : NoStart s) : NoStart (w ++ s) := by
  induction w with
  | nil => exact h
  | cons c w ih =>
    have hc := hw c (by simp)
    subst hc
    intro a v b hv he
    rcases a with _ | ⟨d, a⟩
    · simp at he
    · rw [List.cons_append, List.cons_append, List.cons.injEq] at he
      exact ih (fun c hc => hw c (List.mem_cons_of_mem _ hc)) a v b hv he.2

/-! ### invariants of the parser -/

/-- The rest of the tokens never goes on after depth 0 has been reached. -/
def Stops : Int → List Tok → Prop
  | _, [] => True
  | d, .D '(' :: ts => Stops (d + 1) ts
  | d, .D ')' :: ts => if d - 1 = 0 then ts = [] else Stops (d - 1) ts
  | d, _ :: ts => Stops d ts

theorem tokLoop_stops (fuel : Nat) (d : Int) (s : Str) : Stops d (tokLoop fuel d s).1 := by
  induction fuel generalizing d s with
  | zero => exact trivial
  | succ fuel ih =>
    rw [tokLoop]
    split
    · exact trivial
    · rename_i t rest _
      split
      · simp only [Stops]; exact ih _ _
      · split
        · rename_i hd; simp [Stops, hd]
        · rename_i hd; simp only [Stops, if_neg hd]; exact ih _ _
      · rename_i h1 h2
        simp only
        rw [Stops]
        · exact ih _ _
        · exact h1
        · exact h2

/-- What a token produced by the tokeniser looks like. -/
def TokOk : Tok → Prop
  | .V v => ValidValue v
  | .I i => i.length ≤ 64 ∧ ∀ c ∈ i, 'A' ≤ c ∧ c ≤ 'Z'
  | .D c => c = ';' ∨ c = '(' ∨ c = ')'

theorem scanValue_valid {s v r : Str} (h : scanValue s = some (v, r)) : ValidValue v := by
  fun_induction scanValue s generalizing v r with
  | case1 => simp at h
  | case2 => simp at h
  | case3 c s ih =>
    obtain ⟨⟨v', rest'⟩, h1, h2⟩ := Option.map_eq_some_iff.1 h
    cases h2
    exact .escaped (ih h1)
  | case4 s => cases h; exact .nil
  | case5 c s e1 e2 e3 ih =>
    obtain ⟨⟨v', rest'⟩, h1, h2⟩ := Option.map_eq_some_iff.1 h
    cases h2
    refine .plain ?_ ?_ (ih h1)
    · rintro rfl
      cases s with
      | nil => exact e1 rfl rfl
      | cons a b => exact e2 a b rfl rfl
    · rintro rfl; exact e3 rfl

theorem scanIdent_letters (n : Nat) (s : Str) : (scanIdent n s).1.length ≤ n ∧ ∀ c ∈ (scanIdent n s).1, isLetter c = true := by
  fun_induction scanIdent n s with
  | case1 => simp
  | case2 => simp
  | case3 n c r hc p ih =>
    refine ⟨by simp only [List.length_cons]; exact Nat.succ_le_succ ih.1, ?_⟩
    intro d hd
    rcases List.mem_cons.1 hd with rfl | hd
    · exact hc
    · exact ih.2 d hd
  | case4 => simp

theorem nextToken_ok {s r : Str} {t : Tok} (h : nextToken s = some (t, r)) : TokOk t := by
  unfold nextToken at h
  split at h
  · simp at h
  split at h
  · split at h
    · rename_i v rest hv
      cases h
      exact scanValue_valid hv
    · simp at h
  split at h
  · rename_i c r' _ _ _
    simp only [Option.some.injEq, Prod.mk.injEq] at h
    obtain ⟨rfl, _⟩ := h
    obtain ⟨h1, h2⟩ := scanIdent_letters 64 (c :: r')
    refine ⟨Nat.le_trans (List.length_filter_le _ _) h1, ?_⟩
    intro d hd
    rw [List.mem_filter] at hd
    have := h2 d hd.1
    simp only [isLetter, Bool.or_eq_true] at this
    rcases this with h | h
    · exact isUp_iff.1 h
    · simp [h] at hd
  split at h
  · rename_i hc
    cases h
    exact hc
  · simp at h

theorem tokLoop_ok (fuel : Nat) (d : Int) (s : Str) : ∀ t ∈ (tokLoop fuel d s).1, TokOk t := by
  induction fuel generalizing d s with
  | zero => simp [tokLoop]
  | succ fuel ih =>
    rw [tokLoop]
    split
    · simp
    · rename_i t rest ht
      have hok := nextToken_ok ht
      split
      · intro u hu
        rcases List.mem_cons.1 hu with rfl | hu
        · exact hok
        · exact ih _ _ u hu
      · split
        · intro u hu
          rw [List.mem_singleton] at hu
          subst hu; exact hok
        · intro u hu
          rcases List.mem_cons.1 hu with rfl | hu
          · exact hok
          · exact ih _ _ u hu
      · intro u hu
        rcases List.mem_cons.1 hu with rfl | hu
        · exact hok
        · exact ih _ _ u hu

/-- A property map as the parser can produce: like `ValidMap`, except that an identifier can be empty
(when it was written with lower-case letters only). -/
structure ParsedMap (m : PropMap) : Prop where
  keys : (m.map (·.1)).Nodup
  idents : ∀ p ∈ m, p.1.length ≤ 64 ∧ ∀ c ∈ p.1, 'A' ≤ c ∧ c ≤ 'Z'
  nonempty : ∀ p ∈ m, p.2 ≠ []
  values : ∀ p ∈ m, ∀ v ∈ p.2, ValidValue v

inductive ParsedTree : CTree → Prop
  | mk {sq : List PropMap} {ch : List CTree} : sq ≠ [] → (∀ m ∈ sq, ParsedMap m) → (∀ c ∈ ch, ParsedTree c) →
      ParsedTree (.mk sq ch)

theorem parsedMap_nil : ParsedMap [] := ⟨by simp, by simp, by simp, by simp⟩

theorem mem_addProp_keys {m : PropMap} {i k : Str} {vs : List Raw} :
    k ∈ (addProp m i vs).map (·.1) ↔ k = i ∨ k ∈ m.map (·.1) := by
  induction m with
  | nil => simp [addProp]
  | cons p m ih =>
    obtain ⟨k', v⟩ := p
    rw [addProp]
    split
    · rename_i h; subst h; simp
    · rw [List.map_cons, List.mem_cons, ih]
      simp only [List.map_cons, List.mem_cons]
      tauto

theorem mem_addProp {m : PropMap} {i : Str} {vs : List Raw} {p : Str × List Raw} (h : p ∈ addProp m i vs) :
    p ∈ m ∨ p = (i, vs) ∨ ∃ v, (i, v) ∈ m ∧ p = (i, v ++ vs) := by
  induction m with
  | nil => simp [addProp] at h; exact Or.inr (Or.inl h)
  | cons q m ih =>
    obtain ⟨k', v⟩ := q
    rw [addProp] at h
    split at h
    · rename_i hk; subst hk
      rcases List.mem_cons.1 h with rfl | h
      · exact Or.inr (Or.inr ⟨v, by simp, rfl⟩)
      · exact Or.inl (List.mem_cons_of_mem _ h)
    · rcases List.mem_cons.1 h with rfl | h
      · exact Or.inl (by simp)
      · rcases ih h with h | h | ⟨w, hw, h⟩
        · exact Or.inl (List.mem_cons_of_mem _ h)
        · exact Or.inr (Or.inl h)
        · exact Or.inr (Or.inr ⟨w, List.mem_cons_of_mem _ hw, h⟩)

theorem parsedMap_addProp {m : PropMap} (hm : ParsedMap m) {i : Str} {vs : List Raw}
    (hi : i.length ≤ 64 ∧ ∀ c ∈ i, 'A' ≤ c ∧ c ≤ 'Z') (hne : vs ≠ []) (hvs : ∀ v ∈ vs, ValidValue v) :
    ParsedMap (addProp m i vs) := by
  refine ⟨?_, ?_, ?_, ?_⟩
  · have := hm.keys
    clear hm
    induction m with
    | nil => simp [addProp]
    | cons p m ih =>
      obtain ⟨k, v⟩ := p
      rw [List.map_cons, List.nodup_cons] at this
      rw [addProp]
      split
      · rw [List.map_cons, List.nodup_cons]; exact this
      · rename_i hk
        rw [List.map_cons, List.nodup_cons, mem_addProp_keys]
        exact ⟨by simp only [not_or]; exact ⟨hk, this.1⟩, ih this.2⟩
  · intro p hp
    rcases mem_addProp hp with h | rfl | ⟨v, _, rfl⟩
    · exact hm.idents p h
    · exact hi
    · exact hi
  · intro p hp
    rcases mem_addProp hp with h | rfl | ⟨v, _, rfl⟩
    · exact hm.nonempty p h
    · exact hne
    · simp [hne]
  · intro p hp w hw
    rcases mem_addProp hp with h | rfl | ⟨v, hv, rfl⟩
    · exact hm.values p h w hw
    · exact hvs w hw
    · rcases List.mem_append.1 hw with hw | hw
      · exact hm.values _ hv w hw
      · exact hvs w hw

/-- An unfinished game tree whose sequence is complete. -/
def Filled (t : CTree) : Prop := t.sequence ≠ [] ∧ (∀ m ∈ t.sequence, ParsedMap m) ∧ ∀ c ∈ t.children, ParsedTree c

theorem Filled.parsed {t : CTree} (h : Filled t) : ParsedTree t := by
  obtain ⟨sq, ch⟩ := t
  exact .mk h.1 h.2.1 h.2.2

/-- Invariant of the parser state; `d` is the number of open parentheses. -/
structure PInv (d : Int) (st : PState) : Prop where
  depth : d = st.stack.length
  outer : st.stack = [] → st.gameTree = none ∧ st.sequence = none ∧ st.properties = false
  inner : st.stack ≠ [] → ∃ (t : CTree) (l : List CTree), st.gameTree = some t ∧ st.stack = l.map some ++ [none] ∧ (∀ u ∈ l, Filled u) ∧
    (st.sequence = none → Filled t) ∧ (st.sequence ≠ none → t.children = [])
  seq : ∀ ms, st.sequence = some ms → ∀ m ∈ ms, ParsedMap m
  props : st.properties = true → ∃ m ms, st.sequence = some (m :: ms)

theorem pinv_init : PInv 0 PState.init :=
  ⟨rfl, fun _ => ⟨rfl, rfl, rfl⟩, fun h => absurd rfl h, by simp [PState.init], by simp [PState.init]⟩

def PendingOk : Option (Str × List Raw) → Prop
  | none => True
  | some (i, vs) => (i.length ≤ 64 ∧ ∀ c ∈ i, 'A' ≤ c ∧ c ≤ 'Z') ∧ ∀ v ∈ vs, ValidValue v

theorem endProp_inv {d : Int} {st : PState} (h : PInv d st) {i : Str} {vs : List Raw} (hp : PendingOk (some (i, vs))) :
    st.endProp i vs = .error .valueError ∨ ∃ st', st.endProp i vs = .ok st' ∧ PInv d st' := by
  unfold PState.endProp
  split
  · exact Or.inl rfl
  · rename_i hne
    split
    · exact Or.inl rfl
    · rename_i hpr
      simp only [Bool.not_eq_eq_eq_not, Bool.not_true, Bool.not_eq_false] at hpr
      obtain ⟨m, ms, hseq⟩ := h.props hpr
      rw [hseq]
      refine Or.inr ⟨_, rfl, ⟨h.depth, ?_, ?_, ?_, ?_⟩⟩
      · intro hs
        have := (h.outer hs).2.1
        rw [hseq] at this; simp at this
      · intro hs
        obtain ⟨t, l, h1, h2, h3, h4, h5⟩ := h.inner hs
        exact ⟨t, l, h1, h2, h3, by simp, fun _ => h5 (by rw [hseq]; simp)⟩
      · intro ms' hms'
        simp only [Option.some.injEq] at hms'
        subst hms'
        intro m' hm'
        rcases List.mem_cons.1 hm' with rfl | hm'
        · exact parsedMap_addProp (h.seq _ hseq m (by simp)) hp.1 hne hp.2
        · exact h.seq _ hseq m' (List.mem_cons_of_mem _ hm')
      · intro _; exact ⟨_, _, rfl⟩

theorem closeSequence_inv {d : Int} {st : PState} (h : PInv d st) :
    st.closeSequence = .error .valueError ∨ ∃ st', st.closeSequence = .ok st' ∧ st'.sequence = none ∧ st'.stack = st.stack ∧
      (st.stack = [] → st'.gameTree = none) ∧ (st.stack ≠ [] → ∃ t, st'.gameTree = some t ∧ Filled t) := by
  unfold PState.closeSequence
  split
  · rename_i hs
    refine Or.inr ⟨st, rfl, hs, rfl, fun hst => (h.outer hst).1, fun hst => ?_⟩
    obtain ⟨t, l, h1, _, _, h4, _⟩ := h.inner hst
    exact ⟨t, h1, h4 hs⟩
  · exact Or.inl rfl
  · rename_i m ms hs
    have hst : st.stack ≠ [] := by
      intro h0
      have := (h.outer h0).2.1
      rw [hs] at this; simp at this
    obtain ⟨⟨sq, ch⟩, l, h1, h2, h3, h4, h5⟩ := h.inner hst
    rw [h1]
    refine Or.inr ⟨_, rfl, rfl, rfl, fun h0 => absurd h0 hst, fun _ => ⟨_, rfl, ?_⟩⟩
    refine ⟨by simp [CTree.sequence], ?_, ?_⟩
    · intro m' hm'
      simp only [CTree.sequence, List.mem_reverse] at hm'
      exact h.seq _ hs m' hm'
    · have := h5 (by rw [hs]; simp)
      simp only [CTree.children] at this ⊢
      subst this; simp

/-- The depth after a delimiter. -/
def depthAfter (d : Int) (c : Char) : Int := if c = '(' then d + 1 else if c = ')' then d - 1 else d

theorem delim_inv {d : Int} {st : PState} (h : PInv d st) {c : Char} (hc : c = ';' ∨ c = '(' ∨ c = ')') :
    st.delim c = .error .valueError ∨ st.delim c = .error .indexError ∨
    (∃ st', st.delim c = .ok (.inl st') ∧ PInv (depthAfter d c) st' ∧ (c = ')' → d - 1 ≠ 0)) ∨
    (∃ v, st.delim c = .ok (.inr v) ∧ ParsedTree v ∧ c = ')' ∧ d = 1) := by
  unfold PState.delim
  by_cases h1 : c = ';'
  · subst h1
    simp only [if_true]
    rcases hs : st.sequence with _ | ms
    · exact Or.inl rfl
    · right; right; left
      refine ⟨_, rfl, ⟨h.depth, ?_, ?_, ?_, ?_⟩, by simp⟩
      · intro h0
        have := (h.outer h0).2.1
        rw [hs] at this; simp at this
      · intro hst
        obtain ⟨t, l, e1, e2, e3, e4, e5⟩ := h.inner hst
        exact ⟨t, l, e1, e2, e3, by simp, fun _ => e5 (by rw [hs]; simp)⟩
      · intro ms' hms' m hm
        simp only [Option.some.injEq] at hms'
        subst hms'
        rcases List.mem_cons.1 hm with rfl | hm
        · exact parsedMap_nil
        · exact h.seq _ hs m hm
      · intro _; exact ⟨_, _, rfl⟩
  · rw [if_neg h1]
    rcases closeSequence_inv h with he | ⟨st1, he, hsq, hstk, hn, hf⟩
    · rw [he]; exact Or.inl rfl
    · simp only [he, bind, Except.bind]
      by_cases h2 : c = '('
      · subst h2
        simp only [if_true]
        right; right; left
        refine ⟨_, rfl, ⟨?_, by simp, ?_, ?_, by simp⟩, fun h => absurd h (by decide)⟩
        · simp only [depthAfter, if_true, List.length_cons, hstk]
          rw [h.depth]; push_cast; rfl
        · intro _
          by_cases hst : st.stack = []
          · refine ⟨.mk [] [], [], rfl, by simp [hstk, hst, hn hst], by simp, by simp, fun _ => rfl⟩
          · obtain ⟨t, ht, hft⟩ := hf hst
            obtain ⟨_, l, _, e2, e3, _, _⟩ := h.inner hst
            refine ⟨.mk [] [], t :: l, rfl, ?_, ?_, by simp, fun _ => rfl⟩
            · simp [ht, hstk, e2]
            · intro u hu
              rcases List.mem_cons.1 hu with rfl | hu
              · exact hft
              · exact e3 u hu
        · intro ms hms
          simp only [Option.some.injEq] at hms
          subst hms; simp
      · rw [if_neg h2]
        have hc3 : c = ')' := by tauto
        subst hc3
        by_cases hst : st.stack = []
        · rw [hstk, hst]; exact Or.inr (Or.inl rfl)
        · obtain ⟨t, ht, hft⟩ := hf hst
          obtain ⟨_, l, _, e2, e3, _, _⟩ := h.inner hst
          rw [hstk, e2, ht]
          rcases l with _ | ⟨⟨sq, ch⟩, l⟩
          · right; right; right
            exact ⟨t, rfl, hft.parsed, rfl, by rw [h.depth, e2]; rfl⟩
          · right; right; left
            refine ⟨_, rfl, ⟨?_, by simp, ?_, by simp [hsq], by simp⟩, ?_⟩
            · simp only [depthAfter]
              rw [h.depth, e2]; simp
            · intro _
              refine ⟨.mk sq (ch ++ [t]), l, rfl, rfl, fun u hu => e3 u (List.mem_cons_of_mem _ hu), fun _ => ?_,
                fun hx => absurd hsq hx⟩
              obtain ⟨f1, f2, f3⟩ := e3 (.mk sq ch) (by simp)
              refine ⟨f1, f2, ?_⟩
              intro u hu
              simp only [CTree.children, List.mem_append, List.mem_singleton] at hu
              rcases hu with hu | rfl
              · exact f3 u hu
              · exact hft.parsed
            · intro _
              rw [h.depth, e2]; simp; omega

/-- Finish the identifier being handled, if any. -/
def flushP (pending : Option (Str × List Raw)) (st : PState) : Except Exc PState :=
  match pending with
  | some (i, vs) => st.endProp i vs
  | none => .ok st

theorem parseLoop_I (i : Str) (ts : List Tok) (pending : Option (Str × List Raw)) (st : PState) :
    parseLoop (.I i :: ts) pending st = (flushP pending st).bind (fun st => parseLoop ts (some (i, [])) st) := by
  rcases pending with _ | ⟨j, vs⟩ <;> simp only [parseLoop] <;> rfl

theorem parseLoop_D (c : Char) (ts : List Tok) (pending : Option (Str × List Raw)) (st : PState) :
    parseLoop (.D c :: ts) pending st = (flushP pending st).bind (fun st => (st.delim c).bind (fun r =>
      match r with
      | .inl st' => parseLoop ts none st'
      | .inr v => .ok (v, ts))) := by
  rcases pending with _ | ⟨j, vs⟩ <;> simp only [parseLoop] <;> rfl

theorem parseLoop_inv (ts : List Tok) (pending : Option (Str × List Raw)) (d : Int) (st : PState) (h : PInv d st)
    (hp : PendingOk pending) (hok : ∀ t ∈ ts, TokOk t) (hs : Stops d ts) :
    parseLoop ts pending st = .error .valueError ∨ parseLoop ts pending st = .error .indexError ∨
    ∃ v, parseLoop ts pending st = .ok (v, []) ∧ ParsedTree v := by
  induction ts generalizing pending d st with
  | nil => exact Or.inr (Or.inl rfl)
  | cons t ts ih =>
    have hokt := hok t (by simp)
    have hok' : ∀ u ∈ ts, TokOk u := fun u hu => hok u (List.mem_cons_of_mem _ hu)
    have flush : flushP pending st = .error .valueError ∨ ∃ st', flushP pending st = .ok st' ∧ PInv d st' := by
      rcases pending with _ | ⟨i, vs⟩
      · exact Or.inr ⟨st, rfl, h⟩
      · exact endProp_inv h hp
    cases t with
    | V v =>
      rcases pending with _ | ⟨i, vs⟩
      · exact Or.inl rfl
      · rw [parseLoop]
        refine ih _ d st h ⟨hp.1, ?_⟩ hok' (by simpa [Stops] using hs)
        intro w hw
        rcases List.mem_append.1 hw with hw | hw
        · exact hp.2 w hw
        · rw [List.mem_singleton] at hw; subst hw; exact hokt
    | I i =>
      rw [parseLoop_I]
      rcases flush with hf | ⟨st', hf, hi⟩
      · rw [hf]; exact Or.inl rfl
      · rw [hf]
        simp only [Except.bind]
        exact ih _ d st' hi ⟨hokt, by simp⟩ hok' (by simpa [Stops] using hs)
    | D c =>
      rw [parseLoop_D]
      rcases flush with hf | ⟨st', hf, hi⟩
      · rw [hf]; exact Or.inl rfl
      · rw [hf]
        simp only [Except.bind]
        rcases delim_inv hi hokt with he | he | ⟨st2, he, hi2, hd⟩ | ⟨v, he, hv, rfl, rfl⟩
        · rw [he]; exact Or.inl rfl
        · rw [he]; exact Or.inr (Or.inl rfl)
        · rw [he]
          simp only
          refine ih none _ st2 hi2 trivial hok' ?_
          rcases hokt with rfl | rfl | rfl
          · simpa [Stops, depthAfter] using hs
          · simpa [Stops, depthAfter] using hs
          · simp only [Stops, if_neg (hd rfl)] at hs
            simpa [depthAfter] using hs
        · rw [he]
          simp only [Stops] at hs
          have : ts = [] := by simpa using hs
          subst this
          exact Or.inr (Or.inr ⟨v, rfl, hv⟩)

theorem tokLoop_tail (fuel : Nat) (d : Int) (s : Str) : (tokLoop fuel d s).2.length ≤ s.length ∧
    ((tokLoop fuel d s).1 ≠ [] → (tokLoop fuel d s).2.length < s.length) := by
  induction fuel generalizing d s with
  | zero => simp [tokLoop]
  | succ fuel ih =>
    rw [tokLoop]
    split
    · simp
    · rename_i t rest ht
      have hl := nextToken_length ht
      split
      · have := ih (d + 1) rest
        simp only; omega
      · split
        · simp only; omega
        · have := ih (d - 1) rest
          simp only; omega
      · have := ih d rest
        simp only; omega

theorem findStart_length {s s0 : Str} (h : findStart s = some s0) : s0.length ≤ s.length := by
  induction s with
  | nil => simp [findStart] at h
  | cons c r ih =>
    rw [findStart] at h
    split at h
    · cases h; simp
    · have := ih h; simp; omega

theorem parseGame_cases (s : Str) : parseGame s = .ok none ∨ parseGame s = .error .valueError ∨
    ∃ v r, parseGame s = .ok (some (v, r)) ∧ ParsedTree v ∧ r.length < s.length := by
  unfold parseGame
  simp only
  by_cases hne : (tokenise s).1 = []
  · rw [if_pos hne]; exact Or.inl rfl
  · rw [if_neg hne]
    have hst : ∃ s0, findStart s = some s0 ∧ tokenise s = tokLoop s0.length 0 s0 := by
      unfold tokenise at hne ⊢
      rcases hfs : findStart s with _ | s0
      · rw [hfs] at hne; exact absurd rfl hne
      · exact ⟨s0, rfl, rfl⟩
    obtain ⟨s0, hfs, htok⟩ := hst
    rw [htok] at hne ⊢
    rcases parseLoop_inv _ none 0 PState.init pinv_init trivial (tokLoop_ok s0.length 0 s0) (tokLoop_stops s0.length 0 s0)
      with he | he | ⟨v, he, hv⟩
    · rw [he]; exact Or.inr (Or.inl rfl)
    · rw [he]; exact Or.inr (Or.inl rfl)
    · rw [he]
      refine Or.inr (Or.inr ⟨v, (tokLoop s0.length 0 s0).2, by simp, hv, ?_⟩)
      have h1 := (tokLoop_tail s0.length 0 s0).2 hne
      have h2 := findStart_length hfs
      omega

/-- More fuel doesn't change the tokeniser's result. -/
theorem tokLoop_fuel (fuel : Nat) (d : Int) (s : Str) (h : s.length ≤ fuel) : tokLoop fuel d s = tokLoop s.length d s := by
  have key : ∀ (n : Nat) (fuel fuel' : Nat) (d : Int) (s : Str), s.length ≤ n → s.length ≤ fuel → s.length ≤ fuel' →
      tokLoop fuel d s = tokLoop fuel' d s := by
    intro n
    induction n with
    | zero =>
      intro fuel fuel' d s hn h1 h2
      have : s = [] := by simpa using hn
      subst this
      cases fuel <;> cases fuel' <;> simp [tokLoop, nextToken]
    | succ n ih =>
      intro fuel fuel' d s hn h1 h2
      rcases hs : nextToken s with _ | ⟨t, rest⟩
      · cases fuel <;> cases fuel' <;> simp [tokLoop, hs]
      · have hl := nextToken_length hs
        cases fuel with
        | zero => omega
        | succ fuel =>
          cases fuel' with
          | zero => omega
          | succ fuel' =>
            have e := fun d => ih fuel fuel' d rest (by omega) (by omega) (by omega)
            simp only [tokLoop, hs, e]
  exact key s.length fuel s.length d s (Nat.le_refl _) h (Nat.le_refl _)

theorem collectionLoop_fuel (n fuel fuel' : Nat) (s : Str) (hn : s.length ≤ n) (h1 : s.length < fuel) (h2 : s.length < fuel') :
    collectionLoop fuel s = collectionLoop fuel' s := by
  induction n generalizing fuel fuel' s with
  | zero =>
    have : s = [] := by simpa using hn
    subst this
    cases fuel with
    | zero => simp at h1
    | succ fuel =>
      cases fuel' with
      | zero => simp at h2
      | succ fuel' => rfl
  | succ n ih =>
    cases fuel with
    | zero => omega
    | succ fuel =>
      cases fuel' with
      | zero => omega
      | succ fuel' =>
        simp only [collectionLoop]
        rcases parseGame_cases s with h | h | ⟨v, r, h, _, hl⟩
        · rw [h]; rfl
        · rw [h]; rfl
        · rw [h]
          simp only [bind, Except.bind]
          rw [ih fuel fuel' r (by omega) (by omega) (by omega)]

theorem collectionLoop_cases (fuel : Nat) (s : Str) : collectionLoop fuel s = .error .valueError ∨
    ∃ l, collectionLoop fuel s = .ok l ∧ ∀ t ∈ l, ParsedTree t := by
  induction fuel generalizing s with
  | zero => exact Or.inr ⟨[], rfl, by simp⟩
  | succ fuel ih =>
    simp only [collectionLoop]
    rcases parseGame_cases s with h | h | ⟨v, r, h, hv, hl⟩
    · rw [h]; exact Or.inr ⟨[], rfl, by simp⟩
    · rw [h]; exact Or.inl rfl
    · rw [h]
      simp only [bind, Except.bind]
      rcases ih r with h' | ⟨l, h', hl'⟩
      · rw [h']; exact Or.inl rfl
      · rw [h']
        refine Or.inr ⟨v :: l, rfl, ?_⟩
        intro t ht
        rcases List.mem_cons.1 ht with rfl | ht
        · exact hv
        · exact hl' t ht

end Gomill.Sgf
