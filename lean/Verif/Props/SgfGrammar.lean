import Verif.Lemmas.SgfTotal
/-
C16-C18: SGF game trees.
-/
namespace Gomill.Sgf

open Py

/-! ## C16 -/

/-- C16: parsing a serialised game tree gives back the same tree, for every wrap width and without wrapping, whatever
follows it in the file. -/
theorem C16_round_trip (t : CTree) (ht : ValidTree t) (wrap : Option Int) (rest : Str) :
    ∃ t', parseSgfGame (serialise t wrap ++ rest) = .ok t' ∧ SameTree t t' := by
  obtain ⟨w, _, hl⟩ := serialise_lexes ht wrap rest
  refine ⟨t.norm, ?_, sameTree_norm ht⟩
  unfold parseSgfGame
  rw [parseGame_tree ht hl]
  rfl

/-- C16: in the other direction: a tree obtained by parsing any input can be serialised and parsed again without change,
provided no identifier in the input was made of lower-case letters only (see `C17_empty_ident`). -/
theorem C16_reparse (s : Str) (t : CTree) (h : parseSgfGame s = .ok t) (hv : ValidTree t) (wrap : Option Int) :
    ∃ t', parseSgfGame (serialise t wrap) = .ok t' ∧ SameTree t t' := by
  have := C16_round_trip t hv wrap []
  rwa [List.append_nil] at this

/-- C16: the serialised form is the same for maps which are equal as dicts: it does not depend on their iteration order. -/
theorem C16_deterministic (m m' : PropMap) (hm : (m.map (·.1)).Nodup) (hp : m.Perm m') : sortProps m = sortProps m' := by
  have total : ∀ a b : Str, identLe a b = true ∨ identLe b a = true := by
    intro a b
    unfold identLe
    by_cases h1 : a = ffIdent
    · simp [h1]
    · by_cases h2 : b = ffIdent
      · simp [h2]
      · simp only [h1, h2, if_false, decide_eq_true_eq]
        by_cases h : b < a
        · exact Or.inr (Std.not_lt.2 (Std.le_of_lt h))
        · exact Or.inl h
  have trans : ∀ a b c : Str, identLe a b = true → identLe b c = true → identLe a c = true := by
    intro a b c
    unfold identLe
    by_cases h1 : a = ffIdent
    · simp [h1]
    · by_cases h2 : b = ffIdent
      · subst h2; simp [h1]
      · by_cases h3 : c = ffIdent
        · subst h3; simp [h1, h2]
        · simp only [h1, h2, h3, if_false, decide_eq_true_eq, Std.not_lt]
          exact fun x y => Std.le_trans x y
  have anti : ∀ a b : Str, identLe a b = true → identLe b a = true → a = b := by
    intro a b
    unfold identLe
    by_cases h1 : a = ffIdent
    · by_cases h2 : b = ffIdent
      · intro _ _; rw [h1, h2]
      · simp [h1, h2]
    · by_cases h2 : b = ffIdent
      · simp [h1, h2]
      · simp only [h1, h2, if_false, decide_eq_true_eq, Std.not_lt]
        exact fun x y => Std.le_antisymm x y
  have sorted : ∀ m : PropMap, (sortProps m).Pairwise (fun a b => identLe a.1 b.1 = true) := by
    intro m
    unfold sortProps
    induction m with
    | nil => exact List.Pairwise.nil
    | cons x m ih =>
      rw [List.foldr_cons]
      generalize m.foldr insertProp [] = l at ih
      induction l with
      | nil => simp [insertProp]
      | cons y l ihl =>
        rw [List.pairwise_cons] at ih
        unfold insertProp
        split
        · rename_i hxy
          rw [List.pairwise_cons]
          refine ⟨?_, List.pairwise_cons.2 ih⟩
          intro z hz
          rcases List.mem_cons.1 hz with rfl | hz
          · exact hxy
          · exact trans _ _ _ hxy (ih.1 z hz)
        · rename_i hxy
          rw [List.pairwise_cons]
          refine ⟨?_, ihl ih.2⟩
          intro z hz
          rcases List.mem_cons.1 ((insertProp_perm x l).mem_iff.1 hz) with rfl | hz
          · exact (total _ _).resolve_left hxy
          · exact ih.1 z hz
  have hperm : (sortProps m).Perm (sortProps m') := (sortProps_perm m).trans (hp.trans (sortProps_perm m').symm)
  refine hperm.eq_of_pairwise ?_ (sorted m) (sorted m')
  intro a b ha hb h1 h2
  have hk := anti _ _ h1 h2
  have ha' := (sortProps_perm m).mem_iff.1 ha
  have hb' := hp.mem_iff.2 ((sortProps_perm m').mem_iff.1 hb)
  exact eq_of_key hm ha' hb' hk
where
  eq_of_key {m : PropMap} (hm : (m.map (·.1)).Nodup) {a b : Str × List Raw} (ha : a ∈ m) (hb : b ∈ m) (hk : a.1 = b.1) :
      a = b := by
    induction m with
    | nil => simp at ha
    | cons x m ih =>
      rw [List.map_cons, List.nodup_cons] at hm
      rcases List.mem_cons.1 ha with ha' | ha'
      · rcases List.mem_cons.1 hb with hb' | hb'
        · rw [ha', hb']
        · exact absurd (List.mem_map.2 ⟨b, hb', by rw [← hk, ha']⟩) hm.1
      · rcases List.mem_cons.1 hb with hb' | hb'
        · exact absurd (List.mem_map.2 ⟨a, ha', by rw [hk, hb']⟩) hm.1
        · exact ih hm.2 ha' hb'

/-- C16: the FF property comes first. -/
theorem C16_ff_first (m : PropMap) (h : "FF".toList ∈ m.map (·.1)) : ∃ v r, sortProps m = ("FF".toList, v) :: r := by
  change ffIdent ∈ _ at h
  change ∃ v r, sortProps m = (ffIdent, v) :: r
  unfold sortProps
  induction m with
  | nil => simp at h
  | cons x m ih =>
    rw [List.foldr_cons]
    by_cases hx : x.1 = ffIdent
    · obtain ⟨k, v⟩ := x
      simp only at hx
      subst hx
      cases m.foldr insertProp [] with
      | nil => exact ⟨v, [], rfl⟩
      | cons y l => exact ⟨v, y :: l, by unfold insertProp; rw [if_pos (by simp [identLe])]⟩
    · rw [List.map_cons, List.mem_cons] at h
      obtain ⟨v, r, hr⟩ := ih (h.resolve_left (Ne.symm hx))
      rw [hr]
      refine ⟨v, insertProp x r, ?_⟩
      rw [insertProp, if_neg]
      unfold identLe
      simp [hx]

/-- C16: non-vacuity: a tree with variations, escapes and several values. -/
def exampleTree : CTree :=
  .mk [[("SZ".toList, ["19".toList]), ("FF".toList, ["4".toList])], [("C".toList, ["a\\]b\nc\\\\".toList])]]
    [.mk [[("B".toList, ["aa".toList])]] [], .mk [[("AB".toList, ["ab".toList, "cd".toList]), ("B".toList, [[]])]] []]

theorem validTree_of_bool {sq : List PropMap} {ch : List CTree} (h1 : sq ≠ [])
    (h2 : ∀ m ∈ sq, (m.map (·.1)).Nodup ∧ (∀ p ∈ m, isValidIdent p.1 = true ∧ p.2 ≠ [] ∧ ∀ v ∈ p.2, isValidValue v = true))
    (h3 : ∀ c ∈ ch, ValidTree c) : ValidTree (.mk sq ch) :=
  .mk h1 (fun m hm => ⟨(h2 m hm).1, fun p hp => (isValidIdent_iff _).1 ((h2 m hm).2 p hp).1,
    fun p hp => ((h2 m hm).2 p hp).2.1, fun p hp v hv => (isValidValue_iff _).1 (((h2 m hm).2 p hp).2.2 v hv)⟩) h3

theorem C16_witness : ValidTree exampleTree ∧
    serialise exampleTree (some 10) = "(;FF[4]\nSZ[19];\nC[a\\]b\nc\\\\]\n(;B[aa])(;\nAB[ab][cd]\nB[]))\n".toList := by
  constructor
  · refine validTree_of_bool (by decide) (by decide) ?_
    intro c hc
    rcases List.mem_cons.1 hc with rfl | hc
    · exact validTree_of_bool (by decide) (by decide) (by simp)
    · rw [List.mem_singleton] at hc
      subst hc
      exact validTree_of_bool (by decide) (by decide) (by simp)
  · decide +kernel

/-! ## C17 -/

/-- C17: on every input `parse_sgf_game` returns a game tree or raises ValueError; the tree has nonempty node sequences
and well-formed property maps. -/
theorem C17_total (s : Str) :
    (∃ t, parseSgfGame s = .ok t ∧ ParsedTree t) ∨ parseSgfGame s = .error .valueError := by
  unfold parseSgfGame
  rcases parseGame_cases s with h | h | ⟨v, r, h, hv, _⟩
  · rw [h]; exact Or.inr rfl
  · rw [h]; exact Or.inr rfl
  · rw [h]; exact Or.inl ⟨v, rfl, hv⟩

/-- C17: the same for collections, which are never empty. -/
theorem C17_collection_total (s : Str) :
    (∃ l, parseSgfCollection s = .ok l ∧ l ≠ [] ∧ ∀ t ∈ l, ParsedTree t) ∨ parseSgfCollection s = .error .valueError := by
  unfold parseSgfCollection
  rcases collectionLoop_cases (s.length + 1) s with h | ⟨l, h, hl⟩
  · rw [h]; exact Or.inr rfl
  · rw [h]
    simp only [bind, Except.bind]
    by_cases hn : l = []
    · rw [if_pos hn]; exact Or.inr rfl
    · rw [if_neg hn]; exact Or.inl ⟨l, rfl, hn, hl⟩

/-- C17: termination: the bounds on the number of iterations in the model are never reached: the tokeniser's and the
collection's result is the same for every greater bound. -/
theorem C17_terminates (s : Str) :
    (∀ fuel d, s.length ≤ fuel → tokLoop fuel d s = tokLoop s.length d s) ∧
    (∀ fuel, s.length < fuel → collectionLoop fuel s = collectionLoop (s.length + 1) s) :=
  ⟨fun fuel d h => tokLoop_fuel fuel d s h, fun fuel h => collectionLoop_fuel s.length _ _ s (Nat.le_refl _) h (by omega)⟩

/-- C17: an input without a game start is rejected. -/
theorem C17_no_start (s : Str) (h : NoStart s) : parseSgfGame s = .error .valueError := by
  unfold parseSgfGame
  rw [parseGame_none h]; rfl

/-- C17: what is left of the full validity: parsed trees are valid except that an identifier can be empty. -/
theorem C17_parsed_valid (t : CTree) (h : ParsedTree t) (hid : ∀ m, InTree m t → ∀ p ∈ m, p.1 ≠ []) : ValidTree t := by
  induction h with
  | @mk sq ch h1 h2 _ ih =>
    refine .mk h1 ?_ ?_
    · intro m hm
      have hp := h2 m hm
      refine ⟨hp.keys, ?_, hp.nonempty, hp.values⟩
      intro p hpm
      have hne := hid m (.here hm) p hpm
      exact ⟨by rcases hx : p.1 with _ | _ <;> simp_all, (hp.idents p hpm).1, (hp.idents p hpm).2⟩
    · intro c hc
      exact ih c hc (fun m hm => hid m (.inChild hc hm))

/-- C17, disagreement with the documentation of `tokenise` (line 98): an identifier of lower-case letters only is
returned as the empty string, which isn't a valid identifier. -/
theorem C17_empty_ident : tokenise "(;abc[x])".toList = ([.D '(', .D ';', .I [], .V ['x'], .D ')'], []) ∧
    isValidIdent [] = false := by
  decide +kernel

/-! ## C18 -/

/-- A file: games, each serialised with some wrapping and followed by text in which no game starts. -/
def fileOf : List (CTree × Option Int × Str) → Str
  | [] => []
  | (t, wrap, junk) :: r => serialise t wrap ++ junk ++ fileOf r

/-- C18: a collection made of serialised games, with arbitrary text not containing a game start before, between and
after them, is read as exactly those games. -/
theorem C18_collection (junk0 : Str) (l : List (CTree × Option Int × Str)) (hl : l ≠ []) (h0 : NoStart junk0)
    (hv : ∀ x ∈ l, ValidTree x.1 ∧ NoStart x.2.2) :
    ∃ ts, parseSgfCollection (junk0 ++ fileOf l) = .ok ts ∧ ts.length = l.length ∧
      ∀ i (h : i < l.length) (h' : i < ts.length), SameTree (l[i]).1 ts[i] := by
  have main : ∀ (l : List (CTree × Option Int × Str)), (∀ x ∈ l, ValidTree x.1 ∧ NoStart x.2.2) →
      ∀ (junk : Str) (fuel : Nat), NoStart junk → (junk ++ fileOf l).length < fuel →
      collectionLoop fuel (junk ++ fileOf l) = .ok (l.map (fun x => x.1.norm)) := by
    intro l
    induction l with
    | nil =>
      intro _ junk fuel hj hf
      cases fuel with
      | zero => omega
      | succ fuel =>
        rw [collectionLoop, fileOf, List.append_nil, parseGame_none hj]; rfl
    | cons x l ih =>
      intro hv junk fuel hj hf
      obtain ⟨t, wrap, junk'⟩ := x
      obtain ⟨ht, hj'⟩ := hv _ (List.mem_cons_self ..)
      simp only at ht hj'
      cases fuel with
      | zero => omega
      | succ fuel =>
        obtain ⟨w, hw, hlx⟩ := serialise_lexes ht wrap (junk' ++ fileOf l)
        have hstart : ∃ ts, t.toks = .D '(' :: ts := by cases ht; exact ⟨_, rfl⟩
        obtain ⟨ts, htoks⟩ := hstart
        have hfirst : ∀ c, ((serialise t wrap ++ (junk' ++ fileOf l)).dropWhile isSpace).head? = some c → c ≠ ';' := by
          have := hlx
          rw [htoks] at this
          cases this with
          | @cons _ _ _ s1 _ h1 _ =>
            obtain ⟨w1, hw1, he⟩ := nextToken_delim_inv h1
            rw [he, List.dropWhile_append_of_pos hw1, List.dropWhile_cons_of_neg (by decide)]
            intro c hc
            simp at hc
            rw [← hc]; decide
        have hpg : parseGame (junk ++ fileOf ((t, wrap, junk') :: l)) = .ok (some (t.norm, w ++ (junk' ++ fileOf l))) := by
          rw [← parseGame_tree ht hlx]
          apply parseGame_congr
          rw [fileOf, List.append_assoc, findStart_junk hj hfirst]
        have hlen : (w ++ (junk' ++ fileOf l)).length < fuel := by
          have h1 := hlx.length
          have h2 : t.toks.length ≥ 1 := by rw [htoks]; simp
          simp only [fileOf, List.append_assoc, List.length_append] at hf h1 ⊢
          omega
        rw [collectionLoop, hpg]
        simp only [bind, Except.bind]
        rw [← List.append_assoc] at hlen ⊢
        rw [ih (fun x hx => hv x (List.mem_cons_of_mem _ hx)) (w ++ junk') fuel (noStart_spaces hw hj') hlen]
        rfl
  refine ⟨l.map (fun x => x.1.norm), ?_, by simp, ?_⟩
  · unfold parseSgfCollection
    rw [main l hv junk0 _ h0 (Nat.lt_succ_self _)]
    simp only [bind, Except.bind]
    rw [if_neg (by simpa using hl)]
    rfl
  · intro i h h'
    rw [List.getElem_map]
    exact sameTree_norm (hv _ (List.getElem_mem _)).1

/-- C18: non-vacuity. -/
theorem C18_witness : NoStart "garbage (x) ( ".toList ∧ ¬ NoStart "x( \n;".toList ∧
    (∃ ts, parseSgfCollection ("junk".toList ++ serialise exampleTree none ++ "( ".toList ++ serialise exampleTree (some 3)) =
      .ok ts ∧ ts.length = 2) := by
  refine ⟨?_, ?_, ?_⟩
  · have key : ∀ s, findStart s = none → NoStart s := by
      intro s hs a w b hw he
      subst he
      induction a with
      | nil =>
        rw [List.nil_append, findStart, if_pos (atStart_iff.2 ⟨w, b, hw, rfl⟩)] at hs
        simp at hs
      | cons c a ih =>
        rw [List.cons_append, findStart] at hs
        split at hs
        · simp at hs
        · exact ih hs
    exact key _ (by decide)
  · intro h
    exact h ['x'] [' ', '\n'] [] (by decide) rfl
  · have h := C18_collection "junk".toList [(exampleTree, none, "( ".toList), (exampleTree, some 3, [])] (by simp)
    have nf : ∀ s : Str, '(' ∉ s ∨ ';' ∉ s → NoStart s := by
      rintro s hs a w b hw rfl
      rcases hs with hs | hs <;> simp at hs
    obtain ⟨ts, h1, h2, _⟩ := h (nf _ (by decide)) (by
      intro x hx
      simp only [List.mem_cons, List.not_mem_nil, or_false] at hx
      rcases hx with rfl | rfl
      · exact ⟨C16_witness.1, nf _ (by decide)⟩
      · exact ⟨C16_witness.1, nf _ (by decide)⟩)
    refine ⟨ts, ?_, h2⟩
    rw [← h1]
    simp [fileOf]

end Gomill.Sgf
