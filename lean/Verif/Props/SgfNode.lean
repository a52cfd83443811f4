import Verif.Lemmas.SgfNode
import Verif.Lemmas.SgfTotal
/-
C50, C51: properties of SGF nodes: what is set is read back, and what a program can't break.
-/
namespace Gomill.Sgf

open Py

/-! ### C50: set and get -/

theorem szIdent_valid : ValidIdent ['S', 'Z'] := ⟨by decide, by decide, by decide⟩

/-- The values `set` stores, when it succeeds. -/
theorem nodeSet_cases (P : Presenter) (m : PropMap) (ident : Str) (v : PVal) :
    (∃ t l, ValidIdent ident ∧ P.effectiveType ident = .ok t ∧ P.serialiseAs t v = .ok l ∧ (ident = ['S', 'Z'] → l = [strInt P.size]) ∧
      nodeSet P m ident v = (m.assign ident l, .ok ())) ∨
    (∃ e, nodeSet P m ident v = (m, .error e)) := by
  unfold nodeSet
  cases hi : isValidIdent ident with
  | false => right; exact ⟨.valueError, by simp⟩
  | true =>
    simp only [Bool.not_true, Bool.false_eq_true, if_false]
    unfold Presenter.serialise
    cases ht : P.effectiveType ident with
    | error e => right; exact ⟨e, rfl⟩
    | ok t =>
      cases hl : P.serialiseAs t v with
      | error e => right; exact ⟨e, by simp only [bind, Except.bind, hl]⟩
      | ok l =>
        simp only [bind, Except.bind, hl]
        unfold setRawListUnchecked
        split
        · right; exact ⟨_, rfl⟩
        · rename_i h
          left
          refine ⟨t, l, (isValidIdent_iff ident).1 hi, rfl, hl, ?_, rfl⟩
          intro hz
          by_contra hn
          exact h ⟨hz, hn⟩

/-- C50: `set` stores a value exactly if the identifier is well formed, the property's type is known, the value is one the
type can represent, and it doesn't change the board size; otherwise it raises an exception and nothing has changed. -/
theorem C50_set_iff (P : Presenter) (hs : 1 ≤ P.size) (hs' : P.size ≤ 25) (m : PropMap) (ident : Str) (v : PVal) :
    ((nodeSet P m ident v).2 = .ok () ↔ ValidIdent ident ∧ ∃ t, P.effectiveType ident = .ok t ∧ Storable P t v ∧
      (ident = ['S', 'Z'] → P.serialiseAs t v = .ok [strInt P.size])) ∧
    ((nodeSet P m ident v).2 ≠ .ok () → (nodeSet P m ident v).1 = m) := by
  rcases nodeSet_cases P m ident v with ⟨t, l, h1, h2, h3, h4, h5⟩ | ⟨e, h⟩
  · rw [h5]
    refine ⟨⟨fun _ => ⟨h1, t, h2, (serialiseAs_iff P hs hs' t v).1 ⟨l, h3⟩, fun hz => by rw [h3, h4 hz]⟩, fun _ => rfl⟩, ?_⟩
    intro hn; exact absurd rfl hn
  · refine ⟨⟨fun h' => (by rw [h] at h'; cases h'), ?_⟩, fun _ => by rw [h]⟩
    rintro ⟨h1, t, h2, h3, h4⟩
    exfalso
    obtain ⟨l, hl⟩ := (serialiseAs_iff P hs hs' t v).2 h3
    unfold nodeSet at h
    rw [(isValidIdent_iff ident).2 h1] at h
    simp only [Bool.not_true, Bool.false_eq_true, if_false, Presenter.serialise, h2, bind, Except.bind, hl] at h
    unfold setRawListUnchecked at h
    rw [if_neg] at h
    · simp at h
    · rintro ⟨hz, hne⟩
      have := h4 hz
      rw [hl] at this
      cases this
      exact hne rfl

/-- C50: after `set` has stored a value, `get` returns it, with the conversions that are documented for its type, whatever
the node contained before; the other properties are as they were. -/
theorem C50_set_get (P : Presenter) (hs : 1 ≤ P.size) (hs' : P.size ≤ 25) (hC : AsciiCompatible P.codec)
    (isFloat : Rat → Prop) (hF : FloatsOK P.floats isFloat) (m : PropMap) (ident : Str) (v : PVal) (hw : WellFormed isFloat v)
    (t : PType) (ht : P.effectiveType ident = .ok t) (hok : (nodeSet P m ident v).2 = .ok ()) :
    (∃ v', nodeGet P (nodeSet P m ident v).1 ident = .ok v' ∧ Reads t v v') ∧
    ∀ k, k ≠ ident → lookup (nodeSet P m ident v).1 k = lookup m k := by
  rcases nodeSet_cases P m ident v with ⟨t', l, h1, h2, h3, h4, h5⟩ | ⟨e, h⟩
  · rw [ht] at h2
    cases h2
    rw [h5]
    obtain ⟨v', e1, e2⟩ := interpret_serialise P hs hs' hC isFloat hF t v hw l h3
    refine ⟨⟨v', ?_, e2⟩, ?_⟩
    · unfold nodeGet PropMap.item Presenter.interpret
      rw [find_eq_lookup, lookup_assign, if_pos rfl]
      simp only [bind, Except.bind, ht, e1]
    · intro k hk
      rw [lookup_assign, if_neg hk]
  · rw [h] at hok; cases hok

/-- C50: the presenter's table: a registered property has the registered type, the others keep theirs; after
deregistration, and for other unknown properties, the type is the private one, if there is one. -/
theorem C50_register (P : Presenter) (ident : Str) (t : PType) (d : Option PType) :
    (P.registerProperty ident t).effectiveType ident = .ok t ∧
    (∀ k, k ≠ ident → (P.registerProperty ident t).effectiveType k = P.effectiveType k) ∧
    (∀ P', P.deregisterProperty ident = .ok P' → P'.lookupType ident = none ∧ ∀ k, k ≠ ident → P'.effectiveType k = P.effectiveType k) ∧
    ((∃ P', P.deregisterProperty ident = .ok P') ↔ P.lookupType ident ≠ none) ∧
    (∀ k, P.lookupType k = none → (P.setPrivatePropertyType d).effectiveType k = match d with | some t => .ok t | none => .error .valueError) ∧
    (∀ k, P.lookupType k ≠ none → (P.setPrivatePropertyType d).effectiveType k = P.effectiveType k) := by
  have hf : ∀ (l : List (Str × PType)) (k : Str), k ≠ ident →
      (l.filter (fun p => decide (p.1 ≠ ident))).find? (fun p => decide (p.1 = k)) = l.find? (fun p => decide (p.1 = k)) := by
    intro l k hk
    rw [List.find?_filter]
    congr 1
    funext p
    by_cases hp : p.1 = k
    · simp [hp, hk]
    · simp [hp]
  have hn : ∀ (l : List (Str × PType)), (l.filter (fun p => decide (p.1 ≠ ident))).find? (fun p => decide (p.1 = ident)) = none := by
    intro l
    rw [List.find?_eq_none]
    intro p hp
    have := List.of_mem_filter hp
    simpa using this
  refine ⟨?_, ?_, ?_, ?_, ?_, ?_⟩
  · simp [Presenter.effectiveType, Presenter.lookupType, Presenter.registerProperty]
  · intro k hk
    have : ¬ ident = k := fun h => hk h.symm
    simp only [Presenter.effectiveType, Presenter.lookupType, Presenter.registerProperty, List.find?_cons, this, decide_false, hf _ k hk]
  · intro P' h
    unfold Presenter.deregisterProperty at h
    split at h
    · cases h
    · cases h
      refine ⟨?_, ?_⟩
      · simp only [Presenter.lookupType, hn, Option.map_none]
      · intro k hk
        simp only [Presenter.effectiveType, Presenter.lookupType, hf _ k hk]
  · unfold Presenter.deregisterProperty
    cases P.lookupType ident <;> simp
  · intro k hk
    simp only [Presenter.effectiveType, Presenter.lookupType, Presenter.setPrivatePropertyType] at hk ⊢
    rw [hk]
    cases d <;> rfl
  · intro k hk
    cases hl : P.lookupType k with
    | none => exact absurd hl hk
    | some t =>
      simp only [Presenter.effectiveType, Presenter.lookupType, Presenter.setPrivatePropertyType] at hl ⊢
      rw [hl]

/-! ### C51: what edits preserve -/

theorem nodeSet_valid {P : Presenter} (hF : ∀ q, ∀ c ∈ P.floats.repr q, c ≠ ']' ∧ c ≠ '\\') {m : PropMap} (h : ValidMap m)
    (ident : Str) (v : PVal) : ValidMap (nodeSet P m ident v).1 := by
  rcases nodeSet_cases P m ident v with ⟨t, l, h1, h2, h3, h4, h5⟩ | ⟨e, he⟩
  · rw [h5]
    obtain ⟨a, b⟩ := serialiseAs_valid P hF t v l h3
    exact validMap_assign h h1 a b
  · rw [he]; exact h

theorem setPoints_valid {P : Presenter} (hF : ∀ q, ∀ c ∈ P.floats.repr q, c ≠ ']' ∧ c ≠ '\\') {m : PropMap} (h : ValidMap m)
    (ident : Str) (l : List Pt) : ValidMap (setPoints P m ident l).1 := by
  unfold setPoints
  split
  · exact nodeSet_valid hF h _ _
  · exact h

theorem setUnchecked_cases (P : Presenter) (m : PropMap) (ident : Str) (l : List Raw) :
    ((ident = ['S', 'Z'] → l = [strInt P.size]) ∧ setRawListUnchecked P m ident l = (m.assign ident l, .ok ())) ∨
    setRawListUnchecked P m ident l = (m, .error .valueError) := by
  unfold setRawListUnchecked
  split
  · right; rfl
  · rename_i h
    left
    refine ⟨fun hz => ?_, rfl⟩
    by_contra hn
    exact h ⟨hz, hn⟩

theorem andThen_fst (u : Upd) (f : PropMap → Upd) (Q : PropMap → Prop) (h1 : Q u.1) (h2 : ∀ m, Q m → Q (f m).1) : Q (u.andThen f).1 := by
  unfold Upd.andThen
  split
  · exact h2 _ h1
  · exact h1

/-- C51: whatever a program does with a node, its properties stay well formed: distinct valid identifiers, each with a
nonempty list of valid values. -/
theorem C51_valid (P : Presenter) (hF : ∀ q, ∀ c ∈ P.floats.repr q, c ≠ ']' ∧ c ≠ '\\') (m : PropMap) (h : ValidMap m) (op : NodeOp) :
    ValidMap (op.apply P m).1 := by
  cases op with
  | setRawList ident values =>
    simp only [NodeOp.apply, setRawList]
    split
    · exact h
    · rename_i hi
      split
      · exact h
      · rename_i hne
        split
        · exact h
        · rename_i hv
          rcases setUnchecked_cases P m ident values with ⟨_, e⟩ | e
          · rw [e]
            refine validMap_assign h ((isValidIdent_iff _).1 (by simpa using hi)) hne ?_
            intro v hmem
            refine (isValidValue_iff v).1 ?_
            simp only [List.any_eq_true, Bool.not_eq_true', not_exists, not_and, Bool.not_eq_false] at hv
            exact hv v hmem
          · rw [e]; exact h
  | setRaw ident value =>
    simp only [NodeOp.apply, setRaw]
    split
    · exact h
    · rename_i hi
      split
      · exact h
      · rename_i hv
        rcases setUnchecked_cases P m ident [value] with ⟨_, e⟩ | e
        · rw [e]
          refine validMap_assign h ((isValidIdent_iff _).1 (by simpa using hi)) (by simp) ?_
          intro v hmem
          simp only [List.mem_cons, List.not_mem_nil, or_false] at hmem
          subst hmem
          exact (isValidValue_iff _).1 (by simpa using hv)
        · rw [e]; exact h
  | unset ident =>
    simp only [NodeOp.apply, unset]
    split
    · exact h
    · split
      · exact validMap_remove h _
      · exact h
  | set ident v => exact nodeSet_valid hF h ident v
  | setMove c mv => exact nodeSet_valid hF (validMap_remove (validMap_remove h _) _) _ _
  | setSetupStones b w e =>
    simp only [NodeOp.apply, setSetupStones]
    refine andThen_fst _ _ _ (andThen_fst _ _ _ (setPoints_valid hF ?_ _ _) ?_) ?_
    · exact validMap_remove (validMap_remove (validMap_remove h _) _) _
    · intro m hm; exact setPoints_valid hF hm _ _
    · intro m hm; exact setPoints_valid hF hm _ _
  | addCommentText text =>
    simp only [NodeOp.apply, addCommentText]
    split
    · split
      · exact h
      · exact nodeSet_valid hF h _ _
      · exact h
    · exact nodeSet_valid hF h _ _

theorem nodeSet_lookup (P : Presenter) (m : PropMap) (ident k : Str) (v : PVal) (hk : k ≠ ident) :
    lookup (nodeSet P m ident v).1 k = lookup m k := by
  rcases nodeSet_cases P m ident v with ⟨t, l, h1, h2, h3, h4, h5⟩ | ⟨e, he⟩
  · rw [h5, lookup_assign, if_neg hk]
  · rw [he]

/-- C51: a method changes only the properties it is about. -/
theorem C51_frame (P : Presenter) (m : PropMap) (op : NodeOp) (k : Str) (hk : ¬ op.Touches k) :
    lookup (op.apply P m).1 k = lookup m k := by
  cases op with
  | setRawList ident values =>
    have hk : k ≠ ident := hk
    simp only [NodeOp.apply, setRawList]
    split
    · rfl
    · split
      · rfl
      · split
        · rfl
        · rcases setUnchecked_cases P m ident values with ⟨_, e⟩ | e
          · rw [e, lookup_assign, if_neg hk]
          · rw [e]
  | setRaw ident value =>
    have hk : k ≠ ident := hk
    simp only [NodeOp.apply, setRaw]
    split
    · rfl
    · split
      · rfl
      · rcases setUnchecked_cases P m ident [value] with ⟨_, e⟩ | e
        · rw [e, lookup_assign, if_neg hk]
        · rw [e]
  | unset ident =>
    have hk : k ≠ ident := hk
    simp only [NodeOp.apply, unset]
    split
    · rfl
    · split
      · rw [lookup_remove, if_neg hk]
      · rfl
  | set ident v => exact nodeSet_lookup P m ident k v hk
  | setMove c mv =>
    have hk : ¬ (k = ['B'] ∨ k = ['W']) := hk
    simp only [not_or] at hk
    obtain ⟨hb, hw⟩ := hk
    have hi : k ≠ moveIdent c := by cases c <;> simp [moveIdent, hb, hw]
    simp only [NodeOp.apply, setMove]
    rw [nodeSet_lookup P _ _ k _ hi, lookup_remove, if_neg hw, lookup_remove, if_neg hb]
  | setSetupStones b w e =>
    have hk : ¬ (k = ['A', 'B'] ∨ k = ['A', 'W'] ∨ k = ['A', 'E']) := hk
    simp only [not_or] at hk
    simp only [NodeOp.apply, setSetupStones]
    have sp : ∀ m' ident l, k ≠ ident → lookup m' k = lookup m k → lookup (setPoints P m' ident l).1 k = lookup m k := by
      intro m' ident l hki hm
      unfold setPoints
      split
      · rw [nodeSet_lookup P _ _ k _ hki, hm]
      · exact hm
    refine andThen_fst _ _ (fun m' => lookup m' k = lookup m k) (andThen_fst _ _ (fun m' => lookup m' k = lookup m k) (sp _ _ _ hk.1 ?_) ?_) ?_
    · rw [lookup_remove, if_neg hk.2.2, lookup_remove, if_neg hk.2.1, lookup_remove, if_neg hk.1]
    · intro m' hm'; exact sp _ _ _ hk.2.1 hm'
    · intro m' hm'; exact sp _ _ _ hk.2.2 hm'
  | addCommentText text =>
    have hk : k ≠ ['C'] := hk
    simp only [NodeOp.apply, addCommentText]
    split
    · split
      · rfl
      · exact nodeSet_lookup P m _ k _ hk
      · rfl
    · exact nodeSet_lookup P m _ k _ hk

theorem effectiveSize_congr {m m' : PropMap} {size : Int} (h : lookup m' ['S', 'Z'] = lookup m ['S', 'Z']) (he : EffectiveSize m size) :
    EffectiveSize m' size := by
  unfold EffectiveSize at he ⊢
  rw [h]; exact he

theorem effectiveSize_assign {m : PropMap} {size : Int} {ident : Str} {l : List Raw} (h : ident = ['S', 'Z'] → l = [strInt size])
    (he : EffectiveSize m size) : EffectiveSize (m.assign ident l) size := by
  by_cases hi : ident = ['S', 'Z']
  · unfold EffectiveSize
    rw [lookup_assign, if_pos hi.symm, h hi]
    exact parseInt_strInt size
  · refine effectiveSize_congr ?_ he
    rw [lookup_assign, if_neg (fun h => hi h.symm)]

theorem effectiveSize_nodeSet {P : Presenter} {m : PropMap} (ident : Str) (v : PVal) (he : EffectiveSize m P.size) :
    EffectiveSize (nodeSet P m ident v).1 P.size := by
  rcases nodeSet_cases P m ident v with ⟨t, l, h1, h2, h3, h4, h5⟩ | ⟨e, h⟩
  · rw [h5]; exact effectiveSize_assign h4 he
  · rw [h]; exact he

/-- C51: no method can change the board size of a game: the size that the root node's properties stand for is always the
presenter's. -/
theorem C51_size (P : Presenter) (m : PropMap) (he : EffectiveSize m P.size) (op : NodeOp) :
    EffectiveSize (op.apply P m).1 P.size := by
  cases op with
  | setRawList ident values =>
    simp only [NodeOp.apply, setRawList]
    split
    · exact he
    · split
      · exact he
      · split
        · exact he
        · rcases setUnchecked_cases P m ident values with ⟨h, e⟩ | e
          · rw [e]; exact effectiveSize_assign h he
          · rw [e]; exact he
  | setRaw ident value =>
    simp only [NodeOp.apply, setRaw]
    split
    · exact he
    · split
      · exact he
      · rcases setUnchecked_cases P m ident [value] with ⟨h, e⟩ | e
        · rw [e]; exact effectiveSize_assign h he
        · rw [e]; exact he
  | unset ident =>
    simp only [NodeOp.apply, unset]
    split
    · exact he
    · rename_i hn
      split
      · by_cases hi : ident = ['S', 'Z']
        · unfold EffectiveSize
          rw [lookup_remove, if_pos hi.symm]
          simp only
          by_contra hne
          exact hn ⟨hi, hne⟩
        · refine effectiveSize_congr ?_ he
          rw [lookup_remove, if_neg (fun h => hi h.symm)]
      · exact he
  | set ident v => exact effectiveSize_nodeSet ident v he
  | setMove c mv =>
    refine effectiveSize_congr (C51_frame P m (.setMove c mv) _ ?_) he
    intro h; rcases h with h | h <;> simp at h
  | setSetupStones b w e =>
    refine effectiveSize_congr (C51_frame P m (.setSetupStones b w e) _ ?_) he
    intro h; rcases h with h | h | h <;> simp at h
  | addCommentText text =>
    refine effectiveSize_congr (C51_frame P m (.addCommentText text) _ ?_) he
    intro h
    have h : ['S', 'Z'] = ['C'] := h
    simp at h

/-- C51: a method that raises an exception has changed nothing, except that set_move and set_setup_stones have already
removed the old values. -/
theorem C51_atomic (P : Presenter) (m : PropMap) (op : NodeOp) (e : Exc) (h : (op.apply P m).2 = .error e)
    (h1 : ∀ c mv, op ≠ .setMove c mv) (h2 : ∀ b w e, op ≠ .setSetupStones b w e) : (op.apply P m).1 = m := by
  have hset : ∀ ident v, (nodeSet P m ident v).2 = .error e → (nodeSet P m ident v).1 = m := by
    intro ident v hh
    rcases nodeSet_cases P m ident v with ⟨t, l, _, _, _, _, h5⟩ | ⟨e', he⟩
    · rw [h5] at hh; cases hh
    · rw [he]
  cases op with
  | setRawList ident values =>
    simp only [NodeOp.apply, setRawList] at h ⊢
    split
    · rfl
    · rename_i a1
      rw [if_neg a1] at h
      split
      · rfl
      · rename_i a2
        rw [if_neg a2] at h
        split
        · rfl
        · rename_i a3
          rw [if_neg a3] at h
          rcases setUnchecked_cases P m ident values with ⟨_, e'⟩ | e'
          · rw [e'] at h; cases h
          · rw [e']
  | setRaw ident value =>
    simp only [NodeOp.apply, setRaw] at h ⊢
    split
    · rfl
    · rename_i a1
      rw [if_neg a1] at h
      split
      · rfl
      · rename_i a2
        rw [if_neg a2] at h
        rcases setUnchecked_cases P m ident [value] with ⟨_, e'⟩ | e'
        · rw [e'] at h; cases h
        · rw [e']
  | unset ident =>
    simp only [NodeOp.apply, unset] at h ⊢
    split
    · rfl
    · rename_i a1
      rw [if_neg a1] at h
      split
      · rename_i a2
        rw [if_pos a2] at h
        cases h
      · rfl
  | set ident v => exact hset ident v h
  | setMove c mv => exact absurd rfl (h1 c mv)
  | setSetupStones b w e => exact absurd rfl (h2 b w e)
  | addCommentText text =>
    simp only [NodeOp.apply, addCommentText] at h ⊢
    split
    · rename_i a1
      rw [if_pos a1] at h
      split
      · rfl
      · rename_i s hs
        rw [hs] at h
        exact hset _ _ h
      · rfl
    · rename_i a1
      rw [if_neg a1] at h
      exact hset _ _ h

theorem effectiveType_of {P : Presenter} {ident : Str} {t : PType} (h : P.lookupType ident = some t) : P.effectiveType ident = .ok t := by
  unfold Presenter.effectiveType; rw [h]

/-- C50: the standard table. -/
theorem C50_standard (size : Int) (C : Codec) (F : Floats) : StandardTypes (Presenter.new size C F) := by
  constructor <;> rfl

/-- C50: `set('SZ', ...)` accepts only the size the game already has. -/
theorem C50_set_size (P : Presenter) (hT : StandardTypes P) (hs : 1 ≤ P.size) (hs' : P.size ≤ 25) (m : PropMap) (v : PVal) :
    (nodeSet P m ['S', 'Z'] v).2 = .ok () ↔ v = .num P.size := by
  rw [(C50_set_iff P hs hs' m _ v).1]
  constructor
  · rintro ⟨_, t, h1, h2, h3⟩
    rw [effectiveType_of hT.sz] at h1
    cases h1
    cases v <;> simp only [Storable] at h2
    rename_i i
    have := h3 rfl
    simp only [Presenter.serialiseAs, serialiseNumber, Except.ok.injEq, List.cons.injEq, and_true] at this
    have h4 := congrArg parseInt this
    rw [parseInt_strInt, parseInt_strInt] at h4
    cases h4
    rfl
  · rintro rfl
    refine ⟨szIdent_valid, .number, effectiveType_of hT.sz, trivial, fun _ => rfl⟩

theorem moveIdent_valid (c : Colour) : ValidIdent (moveIdent c) := by cases c <;> exact ⟨by decide, by decide, by decide⟩

theorem find_assign (m : PropMap) (a : Str) (w : List Raw) (k : Str) :
    (m.assign a w).find k = if k = a then some w else m.find k := by
  rw [find_eq_lookup, lookup_assign, find_eq_lookup]

theorem find_remove (m : PropMap) (a k : Str) : (m.remove a).find k = if k = a then none else m.find k := by
  rw [find_eq_lookup, lookup_remove, find_eq_lookup]

/-- C51: after `set_move`, `get_move` returns the move and no property for the other colour is left. If the move is off
the board, there is a ValueError, and then the node has no move at all. -/
theorem C51_set_move (P : Presenter) (hT : StandardTypes P) (hs : 1 ≤ P.size) (hs' : P.size ≤ 25) (m : PropMap) (c : Colour)
    (mv : Option Pt) :
    ((∀ p, mv = some p → OnBoard P.size p) → (setMove P m c mv).2 = .ok () ∧
      getMove (setMove P m c mv).1 P.size = .ok (some (c, mv)) ∧
      lookup (setMove P m c mv).1 (moveIdent c.opponent) = none) ∧
    (¬ (∀ p, mv = some p → OnBoard P.size p) → (setMove P m c mv).2 = .error .valueError ∧
      getMove (setMove P m c mv).1 P.size = .ok none) := by
  have ht : P.effectiveType (moveIdent c) = .ok .move := by
    cases c
    · exact effectiveType_of hT.b
    · exact effectiveType_of hT.w
  have hi := (isValidIdent_iff _).2 (moveIdent_valid c)
  have hz : ¬ moveIdent c = ['S', 'Z'] := by cases c <;> simp [moveIdent]
  constructor
  · intro h
    obtain ⟨r, h1, h2⟩ := C22_move_roundtrip P.size hs hs' mv h
    have e : setMove P m c mv = (((m.remove ['B']).remove ['W']).assign (moveIdent c) [r], .ok ()) := by
      unfold setMove nodeSet
      rw [hi]
      simp only [Bool.not_true, Bool.false_eq_true, if_false, Presenter.serialise, ht, bind, Except.bind, Presenter.serialiseAs, h1, pure,
        Except.pure, setRawListUnchecked, hz, false_and]
    rw [e]
    refine ⟨rfl, ?_, ?_⟩
    · cases c
      · simp [getMove, getRawMove, find_assign, moveIdent, firstValue, bind, Except.bind, h2, pure, Except.pure]
      · simp [getMove, getRawMove, find_assign, find_remove, moveIdent, firstValue, bind, Except.bind, h2, pure, Except.pure]
    · cases c <;> simp [← find_eq_lookup, find_assign, find_remove, moveIdent, Colour.opponent]
  · intro h
    have hh : ∃ p, mv = some p ∧ ¬ OnBoard P.size p := by
      simp only [not_forall] at h
      obtain ⟨p, h1, h2⟩ := h
      exact ⟨p, h1, h2⟩
    have h1 := C22_serialise_rejects P.size mv (Or.inr hh)
    have e : setMove P m c mv = ((m.remove ['B']).remove ['W'], .error .valueError) := by
      unfold setMove nodeSet
      rw [hi]
      simp only [Bool.not_true, Bool.false_eq_true, if_false, Presenter.serialise, ht, bind, Except.bind, Presenter.serialiseAs, h1]
    rw [e]
    refine ⟨rfl, ?_⟩
    simp [getMove, getRawMove, find_remove, bind, Except.bind, pure, Except.pure]

theorem setPoints_spec {P : Presenter} (hs : 1 ≤ P.size) (hs' : P.size ≤ 25) {ident : Str} (hi : ValidIdent ident)
    (hz : ident ≠ ['S', 'Z']) (ht : P.lookupType ident = some (.pointList false)) (m : PropMap) (hm : m.find ident = none) (l : List Pt)
    (hl : ∀ p ∈ l, OnBoard P.size p) :
    ∃ m', setPoints P m ident l = (m', .ok ()) ∧ (∀ k, k ≠ ident → m'.find k = m.find k) ∧ (m'.has ident = true ↔ l ≠ []) ∧
      ∃ l', getPointList m' ident P.size = .ok l' ∧ l'.Nodup ∧ SameSet l' l := by
  unfold setPoints
  by_cases hne : l = []
  · subst hne
    rw [if_neg (by simp)]
    refine ⟨m, rfl, fun _ _ => rfl, by simp [PropMap.has, hm], [], ?_, by simp, fun p => Iff.rfl⟩
    unfold getPointList; rw [hm]
  · rw [if_pos hne]
    obtain ⟨values, h1, h2, res, h3, h4, h5⟩ := C22_point_list_roundtrip P.size hs hs' l hl
    have hlen : values ≠ [] := by
      intro h
      subst h
      rw [show interpretPointList [] P.size = .ok [] from rfl] at h3
      cases h3
      obtain ⟨p, hp⟩ := List.exists_mem_of_ne_nil l hne
      have := (h5 p).2 hp
      simp at this
    have hlen2 : values ≠ [[]] := by
      intro h
      subst h
      cases h3
    refine ⟨m.assign ident values, ?_, ?_, ?_, res, ?_, h4, fun p => h5 p⟩
    · unfold nodeSet
      rw [(isValidIdent_iff _).2 hi]
      simp only [Bool.not_true, Bool.false_eq_true, if_false, Presenter.serialise, effectiveType_of ht, bind, Except.bind, Presenter.serialiseAs,
        h1, emptyList, if_neg hlen, setRawListUnchecked, hz, false_and]
    · intro k hk
      rw [find_assign, if_neg hk]
    · simp [PropMap.has, find_assign, hne]
    · unfold getPointList
      rw [find_assign, if_pos rfl]
      simp only [listValues_ok hlen hlen2, bind, Except.bind, h3]

theorem getPointList_congr {m m' : PropMap} {ident : Str} (h : m'.find ident = m.find ident) (size : Int) :
    getPointList m' ident size = getPointList m ident size := by
  unfold getPointList; rw [h]

/-- C51: after `set_setup_stones`, `get_setup_stones` returns the three sets of points, and the node has only those of
the three properties which aren't empty. -/
theorem C51_set_setup (P : Presenter) (hT : StandardTypes P) (hs : 1 ≤ P.size) (hs' : P.size ≤ 25) (m : PropMap)
    (black white empty : List Pt) (hl : ∀ p ∈ black ++ white ++ empty, OnBoard P.size p) :
    (setSetupStones P m black white empty).2 = .ok () ∧
    (∃ b w e, getSetupStones (setSetupStones P m black white empty).1 P.size = .ok (b, w, e) ∧
      SameSet b black ∧ SameSet w white ∧ SameSet e empty ∧ b.Nodup ∧ w.Nodup ∧ e.Nodup) ∧
    (hasSetupStones (setSetupStones P m black white empty).1 = true ↔ black ++ white ++ empty ≠ []) := by
  have hi1 : ValidIdent ['A', 'B'] := ⟨by decide, by decide, by decide⟩
  have hi2 : ValidIdent ['A', 'W'] := ⟨by decide, by decide, by decide⟩
  have hi3 : ValidIdent ['A', 'E'] := ⟨by decide, by decide, by decide⟩
  have n1 : (((m.remove ['A', 'B']).remove ['A', 'W']).remove ['A', 'E']).find ['A', 'B'] = none := by simp [find_remove]
  have n2 : (((m.remove ['A', 'B']).remove ['A', 'W']).remove ['A', 'E']).find ['A', 'W'] = none := by simp [find_remove]
  have n3 : (((m.remove ['A', 'B']).remove ['A', 'W']).remove ['A', 'E']).find ['A', 'E'] = none := by simp [find_remove]
  obtain ⟨m1, a1, a2, a3, l1, a4, a5, a6⟩ := setPoints_spec hs hs' hi1 (by decide) hT.ab _ n1 black
    (fun p hp => hl p (by simp [hp]))
  obtain ⟨m2, b1, b2, b3, l2, b4, b5, b6⟩ := setPoints_spec hs hs' hi2 (by decide) hT.aw m1
    (by rw [a2 _ (by decide), n2]) white (fun p hp => hl p (by simp [hp]))
  obtain ⟨m3, c1, c2, c3, l3, c4, c5, c6⟩ := setPoints_spec hs hs' hi3 (by decide) hT.ae m2
    (by rw [b2 _ (by decide), a2 _ (by decide), n3]) empty (fun p hp => hl p (by simp [hp]))
  have e : setSetupStones P m black white empty = (m3, .ok ()) := by
    simp only [setSetupStones, a1, Upd.andThen, b1, c1]
  rw [e]
  refine ⟨rfl, ⟨l1, l2, l3, ?_, a6, b6, c6, a5, b5, c5⟩, ?_⟩
  · have e1 : getPointList m3 ['A', 'B'] P.size = .ok l1 := by
      rw [getPointList_congr (c2 _ (by decide)), getPointList_congr (b2 _ (by decide)), a4]
    have e2 : getPointList m3 ['A', 'W'] P.size = .ok l2 := by
      rw [getPointList_congr (c2 _ (by decide)), b4]
    simp only [getSetupStones, e1, e2, c4, bind, Except.bind, pure, Except.pure]
  · have e1 : m3.has ['A', 'B'] = m1.has ['A', 'B'] := by
      unfold PropMap.has; rw [c2 _ (by decide), b2 _ (by decide)]
    have e2 : m3.has ['A', 'W'] = m2.has ['A', 'W'] := by
      unfold PropMap.has; rw [c2 _ (by decide)]
    simp only [hasSetupStones, Bool.or_eq_true, e1, e2, a3, b3, c3, ne_eq, List.append_eq_nil_iff, not_and_or]

theorem utf8Valid_newlines {s t : Str} (hs : utf8Valid s = true) (ht : utf8Valid t = true) :
    utf8Valid (s ++ ['\n', '\n'] ++ t) = true := by
  have e : s ++ ['\n', '\n'] ++ t = s ++ '\n' :: ('\n' :: t) := by simp
  rw [e, utf8Valid_append (by decide) _ _ s (Nat.le_refl _), utf8Valid_ascii (by decide), hs, ht]
  rfl

/-- C51: `add_comment_text` to a node without a comment sets the comment; otherwise it appends the text after an empty
line. -/
theorem C51_comment (P : Presenter) (hT : StandardTypes P) (hs : 1 ≤ P.size) (hs' : P.size ≤ 25) (hC : AsciiCompatible P.codec)
    (isFloat : Rat → Prop) (hF : FloatsOK P.floats isFloat) (m : PropMap) (text : Str) (hv : utf8Valid text = true) :
    (lookup m ['C'] = none → Encodable P text → (addCommentText P m text).2 = .ok () ∧
      ∃ t, nodeGet P (addCommentText P m text).1 ['C'] = .ok (.str t) ∧ Normalised false text t) ∧
    (∀ s, nodeGet P m ['C'] = .ok (.str s) → utf8Valid s = true → Encodable P (s ++ "\n\n".toList ++ text) →
      (addCommentText P m text).2 = .ok () ∧
      ∃ t, nodeGet P (addCommentText P m text).1 ['C'] = .ok (.str t) ∧ Normalised false (s ++ "\n\n".toList ++ text) t) := by
  have key : ∀ s, utf8Valid s = true → Encodable P s → (nodeSet P m ['C'] (.str s)).2 = .ok () ∧
      ∃ t, nodeGet P (nodeSet P m ['C'] (.str s)).1 ['C'] = .ok (.str t) ∧ Normalised false s t := by
    intro s h1 h2
    have hok : (nodeSet P m ['C'] (.str s)).2 = .ok () := by
      rw [(C50_set_iff P hs hs' m _ _).1]
      exact ⟨⟨by decide, by decide, by decide⟩, .text, effectiveType_of hT.c, h2, fun h => by simp at h⟩
    refine ⟨hok, ?_⟩
    obtain ⟨⟨v', e1, e2⟩, _⟩ := C50_set_get P hs hs' hC isFloat hF m ['C'] (.str s) h1 .text (effectiveType_of hT.c) hok
    cases v' <;> simp only [Reads] at e2
    exact ⟨_, e1, e2⟩
  constructor
  · intro hn he
    have e : addCommentText P m text = nodeSet P m ['C'] (.str text) := by
      unfold addCommentText
      rw [if_neg]
      rw [has_iff, hn]
      simp
    rw [e]
    exact key text hv he
  · intro s h1 h2 h3
    have hh : m.has ['C'] = true := by
      rw [has_iff]
      unfold nodeGet PropMap.item at h1
      rw [find_eq_lookup] at h1
      cases hl : lookup m ['C'] with
      | none => rw [hl] at h1; simp [bind, Except.bind] at h1
      | some v => exact ⟨v, rfl⟩
    have e : addCommentText P m text = nodeSet P m ['C'] (.str (s ++ ['\n', '\n'] ++ text)) := by
      unfold addCommentText
      rw [if_pos hh, h1]
    rw [e]
    exact key _ (utf8Valid_newlines h2 hv) h3

/-- Some floats: the integers, 6.5 and 2**-16. -/
def exampleFloats : Floats where
  read s := if s = "6.5".toList then some (.fin (13/2)) else if s = "1.52587890625e-05".toList then some (.fin (1/65536)) else
    match parseInt s with
    | .ok n => some (.fin n)
    | .error _ => none
  repr q := if q = 13/2 then "6.5".toList else if q = 1/65536 then "1.52587890625e-05".toList else []

/-- Which rationals are among them. -/
def exampleIsFloat (q : Rat) : Prop := q.den = 1 ∨ q = 13/2 ∨ q = 1/65536

theorem exampleFloats_ok : FloatsOK exampleFloats exampleIsFloat where
  zero := Or.inl rfl
  int := by
    intro q _ hd
    have h1 : strInt q.num ≠ "6.5".toList := by
      intro h
      have := congrArg parseInt h
      rw [parseInt_strInt] at this
      have h2 : parseInt "6.5".toList = .error .valueError := by decide
      rw [h2] at this
      cases this
    have h3 : strInt q.num ≠ "1.52587890625e-05".toList := by
      intro h
      have := congrArg parseInt h
      rw [parseInt_strInt] at this
      have h2 : parseInt "1.52587890625e-05".toList = .error .valueError := by decide
      rw [h2] at this
      cases this
    show (if strInt q.num = "6.5".toList then _ else _) = _
    rw [if_neg h1, if_neg h3, parseInt_strInt]
    simp only
    rw [(Rat.den_eq_one_iff q).1 hd]
  repr := by
    intro q h hd
    rcases h with h | h | h
    · exact absurd h hd
    · subst h
      decide +kernel
    · subst h
      decide +kernel
  small := by
    intro q h hd
    rcases h with h | h | h
    · exact absurd h hd
    · subst h
      have : hasEMinus (exampleFloats.repr (13/2)) = false := by decide +kernel
      rw [this]
      norm_num
    · subst h
      have : hasEMinus (exampleFloats.repr (1/65536)) = true := by decide +kernel
      rw [this]
      norm_num
  chars := by
    intro q c hc
    simp only [exampleFloats] at hc
    split at hc
    · revert c; decide
    · split at hc
      · revert c; decide
      · simp at hc

/-- A presenter for UTF-8 games on a 9x9 board. -/
def examplePresenter : Presenter := Presenter.new 9 utf8Codec exampleFloats

/-- C50: non-vacuity: a presenter meeting the assumptions, and values set and read. -/
theorem C50_witness : FloatsOK examplePresenter.floats exampleIsFloat ∧ AsciiCompatible examplePresenter.codec ∧
    (nodeSet examplePresenter [] ['K', 'M'] (.real (.fin (13/2)))).1 = [(['K', 'M'], ["6.5".toList])] ∧
    (nodeSet examplePresenter [] ['K', 'M'] (.real (.fin (1/65536)))).1 = [(['K', 'M'], ["0".toList])] ∧
    (nodeSet examplePresenter [] ['A', 'B'] (.points [(2, 3), (0, 0)])).1 = [(['A', 'B'], ["ai".toList, "dg".toList])] ∧
    nodeGet examplePresenter [(['A', 'B'], ["ai".toList, "dg:eg".toList])] ['A', 'B'] = .ok (.points [(2, 4), (2, 3), (0, 0)]) ∧
    (nodeSet examplePresenter [] ['A', 'B'] (.points [])).2 = .error .valueError ∧
    (nodeSet examplePresenter [] ['D', 'D'] (.points [])).1 = [(['D', 'D'], [[]])] ∧
    (nodeSet examplePresenter [] ['X', 'Y'] (.str "a]b".toList)).1 = [(['X', 'Y'], ["a\\]b".toList])] :=
  ⟨exampleFloats_ok, utf8_ok, by decide +kernel, by decide +kernel, by decide +kernel, by decide +kernel, by decide +kernel,
    by decide +kernel, by decide +kernel⟩

/-- C51: non-vacuity; and `set_move` isn't atomic: after the ValueError for an off-board move the old move is gone. -/
theorem C51_witness : ValidMap [(['B'], ["ee".toList]), (['C'], ["hi".toList])] ∧
    setMove examplePresenter [(['B'], ["ee".toList]), (['C'], ["hi".toList])] .w (some (9, 9)) =
      ([(['C'], ["hi".toList])], .error .valueError) ∧
    (addCommentText examplePresenter [(['B'], ["ee".toList]), (['C'], ["hi".toList])] "there".toList).1 =
      [(['B'], ["ee".toList]), (['C'], ["hi\n\nthere".toList])] ∧
    (newGameProps examplePresenter "UTF-8".toList).1 =
      [(['F', 'F'], [['4']]), (['G', 'M'], [['1']]), (['S', 'Z'], [['9']]), (['C', 'A'], ["UTF-8".toList])] := by
  refine ⟨⟨by decide, ?_, by decide, ?_⟩, by decide +kernel, by decide +kernel, by decide +kernel⟩
  · intro p hp
    simp only [List.mem_cons, List.not_mem_nil, or_false] at hp
    rcases hp with rfl | rfl <;> exact ⟨by decide, by decide, by decide⟩
  · intro p hp v hv
    refine (isValidValue_iff v).1 ?_
    revert v
    revert p
    decide

end Gomill.Sgf
