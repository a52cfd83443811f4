import Verif.Lemmas.SgfLex
/-
Lemmas about the SGF parser.
-/
namespace Gomill.Sgf

open Py

/-! ### the tokeniser loop -/

/-- Starting at depth `d`, the tokens reach depth 0 for the first time at the last token. -/
def Closes : Int → List Tok → Prop
  | _, [] => False
  | d, .D '(' :: ts => Closes (d + 1) ts
  | d, .D ')' :: ts => if d - 1 = 0 then ts = [] else Closes (d - 1) ts
  | d, _ :: ts => Closes d ts

theorem nextToken_length {s s' : Str} {t : Tok} (h : nextToken s = some (t, s')) : s'.length < s.length := by
  have hdw : (s.dropWhile isSpace).length ≤ s.length := (List.dropWhile_sublist _).length_le
  have scanV : ∀ (r v rest : Str), scanValue r = some (v, rest) → rest.length < r.length := by
    intro r
    fun_induction scanValue r with
    | case1 => simp
    | case2 => simp
    | case3 c r ih =>
      intro v rest hx
      obtain ⟨⟨v', rest'⟩, h1, h2⟩ := Option.map_eq_some_iff.1 hx
      cases h2
      have := ih _ _ h1
      simp; omega
    | case4 r => intro v rest hx; cases hx; simp
    | case5 c r _ _ _ ih =>
      intro v rest hx
      obtain ⟨⟨v', rest'⟩, h1, h2⟩ := Option.map_eq_some_iff.1 hx
      cases h2
      have := ih _ _ h1
      simp; omega
  have scanI : ∀ n (r : Str), (scanIdent n r).2.length ≤ r.length := by
    intro n r
    fun_induction scanIdent n r with
    | case1 => simp
    | case2 => simp
    | case3 n c r _ p ih => simp only [List.length_cons]; exact Nat.le_succ_of_le ih
    | case4 => simp
  unfold nextToken at h
  split at h
  · simp at h
  · rename_i c r hs
    rw [hs] at hdw
    simp only [List.length_cons] at hdw
    split at h
    · split at h
      · rename_i v rest hv
        have := scanV _ _ _ hv
        simp at h; obtain ⟨_, rfl⟩ := h
        omega
      · simp at h
    · split at h
      · rename_i hc
        simp at h; obtain ⟨_, rfl⟩ := h
        rw [scanIdent, if_pos hc]
        have := scanI 63 r
        simp only
        omega
      · split at h
        · simp at h; obtain ⟨_, rfl⟩ := h; omega
        · simp at h

theorem Lexes.length {ts : List Tok} {s r : Str} (h : Lexes ts s r) : ts.length + r.length ≤ s.length := by
  induction h with
  | nil => simp
  | cons h1 _ ih => have := nextToken_length h1; simp; omega

theorem tokLoop_closes {ts : List Tok} {s r : Str} (h : Lexes ts s r) {d : Int} (hc : Closes d ts) {fuel : Nat}
    (hf : ts.length ≤ fuel) : tokLoop fuel d s = (ts, r) := by
  induction h generalizing d fuel with
  | nil => exact absurd hc (by simp [Closes])
  | @cons t ts s s' r h1 h2 ih =>
    cases fuel with
    | zero => simp at hf
    | succ fuel =>
      have hf2 : ts.length ≤ fuel := by simpa using hf
      rw [tokLoop, h1]
      simp only
      split
      · rename_i c
        rw [ih (by simpa [Closes] using hc) hf2]
      · rename_i c
        simp only [Closes] at hc
        by_cases hd : d - 1 = 0
        · rw [if_pos hd] at hc ⊢
          subst hc
          cases h2
          rfl
        · rw [if_neg hd] at hc ⊢
          rw [ih hc hf2]
      · rename_i h3 h4
        have : Closes d ts := by
          rw [Closes] at hc
          · exact hc
          · exact h3
          · exact h4
        rw [ih this hf2]

theorem closes_prop {d : Int} (p : Str × List Raw) (ts : List Tok) : Closes d (propToks p ++ ts) ↔ Closes d ts := by
  unfold propToks
  rw [List.cons_append, Closes]
  · induction p.2 with
    | nil => rfl
    | cons v vs ih =>
      rw [List.map_cons, List.cons_append, Closes]
      · exact ih
      · simp
      · simp
  · simp
  · simp

theorem closes_props {d : Int} (m : PropMap) (ts : List Tok) : Closes d (m.flatMap propToks ++ ts) ↔ Closes d ts := by
  induction m with
  | nil => rfl
  | cons p m ih => rw [List.flatMap_cons, List.append_assoc, closes_prop, ih]

theorem closes_seq {d : Int} (sq : List PropMap) (ts : List Tok) : Closes d (seqToks sq ++ ts) ↔ Closes d ts := by
  unfold seqToks
  induction sq with
  | nil => rfl
  | cons m sq ih =>
    rw [List.flatMap_cons, List.cons_append, List.cons_append, Closes, List.append_assoc, closes_props, ih]
    · simp
    · simp

theorem closes_tree {t : CTree} (h : ValidTree t) {d : Int} (hd : 1 ≤ d) (ts : List Tok) :
    Closes d (t.toks ++ ts) ↔ Closes d ts := by
  induction h generalizing d ts with
  | @mk sq ch _ _ hv ih =>
    rw [CTree.toks, List.cons_append, Closes, List.append_assoc, List.append_assoc, closes_seq]
    have key : ∀ us, Closes (d + 1) (CTree.toks.toksList ch ++ us) ↔ Closes (d + 1) us := by
      intro us
      clear hv
      induction ch with
      | nil => rfl
      | cons c ch ihc =>
        rw [CTree.toks.toksList, List.append_assoc, ih c (by simp) (by omega),
          ihc (fun e he => ih e (List.mem_cons_of_mem _ he))]
    rw [key, List.singleton_append, Closes, if_neg (by omega), show d + 1 - 1 = d by omega]

theorem closes_root {t : CTree} (h : ValidTree t) : Closes 0 t.toks := by
  cases h with
  | @mk sq ch _ _ hv =>
    rw [CTree.toks, Closes, List.append_assoc, closes_seq]
    have key : ∀ us, Closes (0 + 1) (CTree.toks.toksList ch ++ us) ↔ Closes (0 + 1) us := by
      intro us
      induction ch with
      | nil => rfl
      | cons c ch ihc =>
        rw [CTree.toks.toksList, List.append_assoc, closes_tree (hv c (by simp)) (by omega),
          ihc (fun e he => hv e (List.mem_cons_of_mem _ he))]
    rw [key, Closes, if_pos (by omega)]

/-! ### finding the start -/

theorem findStart_space {c : Char} {s : Str} (h : c ≠ '(') : findStart (c :: s) = findStart s := by
  rw [findStart, if_neg]
  unfold atStart
  split
  · rename_i heq; cases heq; exact absurd rfl h
  · simp

theorem nextToken_delim_inv {s s' : Str} {c : Char} (h : nextToken s = some (.D c, s')) :
    ∃ w, (∀ x ∈ w, isSpace x = true) ∧ s = w ++ c :: s' := by
  refine ⟨s.takeWhile isSpace, fun x hx => (List.all_eq_true.1 List.all_takeWhile) x hx, ?_⟩
  unfold nextToken at h
  split at h
  · simp at h
  · rename_i d r hs
    have : s = s.takeWhile isSpace ++ d :: r := by rw [← hs, List.takeWhile_append_dropWhile]
    split at h
    · split at h <;> simp at h
    · split at h
      · simp at h
      · split at h
        · simp at h; obtain ⟨rfl, rfl⟩ := h; exact this
        · simp at h

theorem findStart_lexes {s r : Str} {ts : List Tok} (h : Lexes (.D '(' :: .D ';' :: ts) s r) :
    ∃ s0, findStart s = some s0 ∧ Lexes (.D '(' :: .D ';' :: ts) s0 r := by
  have h0 := h
  cases h with
  | @cons _ _ _ s1 _ h1 h2 =>
    cases h2 with
    | @cons _ _ _ s2 _ h2 h3 =>
      obtain ⟨w, hw, rfl⟩ := nextToken_delim_inv h1
      obtain ⟨w2, hw2, rfl⟩ := nextToken_delim_inv h2
      refine ⟨'(' :: (w2 ++ ';' :: s2), ?_, .cons (nextToken_delim (.inr (.inl rfl))) (.cons h2 h3)⟩
      clear h0 h1
      induction w with
      | nil =>
        rw [List.nil_append, findStart, if_pos]
        unfold atStart
        simp only
        rw [List.dropWhile_append_of_pos hw2, List.dropWhile_cons_of_neg (by decide)]
        rfl
      | cons c w ih =>
        rw [List.cons_append, findStart_space, ih (fun x hx => hw x (List.mem_cons_of_mem _ hx))]
        rintro rfl
        exact absurd (hw '(' (by simp)) (by decide)

theorem tokenise_tree {t : CTree} (h : ValidTree t) {s r : Str} (hl : Lexes t.toks s r) : tokenise s = (t.toks, r) := by
  have hc := closes_root h
  cases h with
  | @mk sq ch hsq _ _ =>
    obtain ⟨m, sq', rfl⟩ : ∃ m sq', sq = m :: sq' := by
      rcases sq with _ | ⟨m, sq'⟩
      · exact absurd rfl hsq
      · exact ⟨m, sq', rfl⟩
    have hform : (CTree.mk (m :: sq') ch).toks = .D '(' :: .D ';' ::
        ((sortProps m).flatMap propToks ++ (seqToks sq' ++ (CTree.toks.toksList ch ++ [.D ')']))) := by
      simp [CTree.toks, seqToks]
    rw [hform] at hl hc ⊢
    obtain ⟨s0, h1, h2⟩ := findStart_lexes hl
    unfold tokenise
    rw [h1]
    simp only
    refine tokLoop_closes h2 hc ?_
    have := h2.length
    omega

/-! ### the parser on the tokens of a tree -/

/-- The tree as it will be parsed: property maps sorted as they were written. -/
def CTree.norm : CTree → CTree
  | .mk sq ch => .mk (sq.map sortProps) (normList ch)
where
  normList : List CTree → List CTree
    | [] => []
    | t :: ts => t.norm :: normList ts

theorem normList_eq (ch : List CTree) : CTree.norm.normList ch = ch.map CTree.norm := by
  induction ch with
  | nil => rfl
  | cons c ch ih => rw [CTree.norm.normList, ih]; rfl

theorem parseLoop_vals (vs acc : List Raw) (ident : Str) (ts : List Tok) (st : PState) :
    parseLoop (vs.map .V ++ ts) (some (ident, acc)) st = parseLoop ts (some (ident, acc ++ vs)) st := by
  induction vs generalizing acc with
  | nil => simp
  | cons v vs ih => rw [List.map_cons, List.cons_append, parseLoop, ih]; simp

/-- The token isn't a value. -/
def NotV : Tok → Prop
  | .V _ => False
  | _ => True

theorem parseLoop_flush {t : Tok} (ht : NotV t) (ts : List Tok) (i : Str) (vs : List Raw) (st : PState) :
    parseLoop (t :: ts) (some (i, vs)) st = (st.endProp i vs >>= fun st' => parseLoop (t :: ts) none st') := by
  cases t with
  | V v => exact absurd ht id
  | I j => simp only [parseLoop]; rcases st.endProp i vs with e | s <;> rfl
  | D c => simp only [parseLoop]; rcases st.endProp i vs with e | s <;> rfl

theorem parseLoop_props (m : PropMap) (hm : ∀ p ∈ m, p.2 ≠ []) (cur : PropMap) (ms : List PropMap)
    {t : Tok} (ht : NotV t) (ts : List Tok) (stack : List (Option CTree)) (gt : Option CTree) :
    parseLoop (m.flatMap propToks ++ t :: ts) none ⟨stack, gt, some (cur :: ms), true⟩ =
      parseLoop (t :: ts) none ⟨stack, gt, some (m.foldl (fun m p => addProp m p.1 p.2) cur :: ms), true⟩ := by
  induction m generalizing cur with
  | nil => rfl
  | cons p m ih =>
    rw [List.flatMap_cons, List.append_assoc]
    rw [show propToks p = .I p.1 :: p.2.map .V from rfl, List.cons_append]
    rw [show parseLoop (.I p.1 :: (p.2.map .V ++ (m.flatMap propToks ++ t :: ts))) none ⟨stack, gt, some (cur :: ms), true⟩ =
      parseLoop (p.2.map .V ++ (m.flatMap propToks ++ t :: ts)) (some (p.1, [])) ⟨stack, gt, some (cur :: ms), true⟩ from rfl]
    rw [parseLoop_vals, List.nil_append]
    have hflush : ∃ u us, m.flatMap propToks ++ t :: ts = u :: us ∧ NotV u := by
      rcases m with _ | ⟨q, m⟩
      · exact ⟨t, ts, rfl, ht⟩
      · exact ⟨.I q.1, q.2.map .V ++ (m.flatMap propToks ++ t :: ts), by simp [propToks], trivial⟩
    obtain ⟨u, us, hu, hnv⟩ := hflush
    rw [hu, parseLoop_flush hnv]
    have : PState.endProp ⟨stack, gt, some (cur :: ms), true⟩ p.1 p.2 =
        .ok ⟨stack, gt, some (addProp cur p.1 p.2 :: ms), true⟩ := by
      unfold PState.endProp
      rw [if_neg (hm p (by simp))]
      rfl
    rw [this]
    simp only [bind, Except.bind]
    rw [← hu]
    exact ih (fun q hq => hm q (List.mem_cons_of_mem _ hq)) (addProp cur p.1 p.2)

theorem addProp_new {m : PropMap} {i : Str} {vs : List Raw} (h : i ∉ m.map (·.1)) : addProp m i vs = m ++ [(i, vs)] := by
  induction m with
  | nil => rfl
  | cons p m ih =>
    obtain ⟨k, v⟩ := p
    simp only [List.map_cons, List.mem_cons, not_or] at h
    rw [addProp, if_neg (Ne.symm h.1), ih h.2]; rfl

theorem foldl_addProp {m cur : PropMap} (h : ((cur ++ m).map (·.1)).Nodup) :
    m.foldl (fun m p => addProp m p.1 p.2) cur = cur ++ m := by
  induction m generalizing cur with
  | nil => simp
  | cons p m ih =>
    rw [List.foldl_cons]
    have hnot : p.1 ∉ cur.map (·.1) := by
      intro hmem
      rw [List.map_append, List.nodup_append] at h
      exact h.2.2 _ hmem _ (by simp) rfl
    rw [addProp_new hnot, ih (by simpa using h)]
    simp

theorem parseLoop_seq (sq : List PropMap) (hv : ∀ m ∈ sq, ValidMap m) (ms : List PropMap) (b : Bool)
    {t : Tok} (ht : NotV t) (ts : List Tok) (stack : List (Option CTree)) (gt : Option CTree) :
    ∃ b', parseLoop (seqToks sq ++ t :: ts) none ⟨stack, gt, some ms, b⟩ =
      parseLoop (t :: ts) none ⟨stack, gt, some ((sq.map sortProps).reverse ++ ms), b'⟩ := by
  unfold seqToks
  induction sq generalizing ms b with
  | nil => exact ⟨b, rfl⟩
  | cons m sq ih =>
    rw [List.flatMap_cons, List.cons_append, List.cons_append, List.append_assoc]
    rw [show parseLoop (.D ';' :: ((sortProps m).flatMap propToks ++
        (sq.flatMap (fun m => .D ';' :: (sortProps m).flatMap propToks) ++ t :: ts))) none ⟨stack, gt, some ms, b⟩ =
      parseLoop ((sortProps m).flatMap propToks ++
        (sq.flatMap (fun m => .D ';' :: (sortProps m).flatMap propToks) ++ t :: ts)) none ⟨stack, gt, some ([] :: ms), true⟩
      from rfl]
    have hnext : ∃ u us, sq.flatMap (fun m => .D ';' :: (sortProps m).flatMap propToks) ++ t :: ts = u :: us ∧ NotV u := by
      rcases sq with _ | ⟨q, sq⟩
      · exact ⟨t, ts, rfl, ht⟩
      · exact ⟨.D ';', _, rfl, trivial⟩
    obtain ⟨u, us, hu, hnv⟩ := hnext
    have hm := hv m (by simp)
    have hperm := sortProps_perm m
    rw [hu, parseLoop_props (sortProps m) (fun p hp => hm.nonempty p (hperm.mem_iff.1 hp)) [] ms hnv, ← hu,
      foldl_addProp (by rw [List.nil_append]; exact ((hperm.map _).nodup_iff).2 hm.keys)]
    obtain ⟨b', hb'⟩ := ih (fun q hq => hv q (List.mem_cons_of_mem _ hq)) (sortProps m :: ms) true
    refine ⟨b', ?_⟩
    rw [List.nil_append, hb']
    simp

/-- What handling a complete variation does to the parser. -/
theorem parseLoop_tree {t : CTree} (h : ValidTree t) (ts : List Tok) (st : PState) (st1 : PState)
    (hc : st.closeSequence = .ok st1) (hs : st1.sequence = none) :
    (∀ sq ch, st1.gameTree = some (.mk sq ch) →
      parseLoop (t.toks ++ ts) none st =
        parseLoop ts none ⟨st1.stack, some (.mk sq (ch ++ [t.norm])), none, false⟩) ∧
    (st1.gameTree = none → parseLoop (t.toks ++ ts) none st = .ok (t.norm, ts)) := by
  induction h generalizing ts st st1 with
  | @mk sq ch hsq hm hv ih =>
    -- after the opening parenthesis
    have hopen : ∀ us, parseLoop (.D '(' :: us) none st =
        parseLoop us none ⟨st1.gameTree :: st1.stack, some (.mk [] []), some [], false⟩ := by
      intro us
      simp [parseLoop, PState.delim, hc, bind, Except.bind, pure, Except.pure]
    -- the children
    have hch : ∀ (cs : List CTree) (_ : ∀ c ∈ cs, c ∈ ch) (done : List CTree) (sq' : List PropMap) (us : List Tok) (s s1 : PState),
        s.closeSequence = .ok s1 → s1.sequence = none → s1.gameTree = some (.mk sq' done) →
        s1.stack = st1.gameTree :: st1.stack →
        ∃ s', parseLoop (CTree.toks.toksList cs ++ us) none s = parseLoop us none s' ∧ ∃ s1', s'.closeSequence = .ok s1' ∧
          s1'.sequence = none ∧ s1'.gameTree = some (.mk sq' (done ++ cs.map CTree.norm)) ∧
          s1'.stack = st1.gameTree :: st1.stack := by
      intro cs
      induction cs with
      | nil =>
        intro _ done sq' us s s1 e1 e2 e3 e4
        exact ⟨s, rfl, s1, e1, e2, by simpa using e3, e4⟩
      | cons c cs ihc =>
        intro hsub done sq' us s s1 e1 e2 e3 e4
        rw [CTree.toks.toksList, List.append_assoc, ((ih c (hsub c (by simp))) (CTree.toks.toksList cs ++ us) s s1 e1 e2).1 sq' done e3]
        obtain ⟨s', f1, s1', f2, f3, f4, f5⟩ := ihc (fun d hd => hsub d (List.mem_cons_of_mem _ hd)) (done ++ [c.norm]) sq' us
          ⟨s1.stack, some (.mk sq' (done ++ [c.norm])), none, false⟩ ⟨s1.stack, some (.mk sq' (done ++ [c.norm])), none, false⟩
          rfl rfl rfl e4
        exact ⟨s', f1, s1', f2, f3, by simpa using f4, f5⟩
    -- the node sequence
    have hfirst : ∃ u us, CTree.toks.toksList ch ++ (.D ')' :: ts) = u :: us ∧ NotV u := by
      rcases ch with _ | ⟨⟨sqc, chc⟩, ch⟩
      · exact ⟨.D ')', ts, rfl, trivial⟩
      · exact ⟨.D '(', _, rfl, trivial⟩
    obtain ⟨u, us, hu, hnv⟩ := hfirst
    obtain ⟨b', hseq⟩ := parseLoop_seq sq hm [] false hnv us (st1.gameTree :: st1.stack) (some (.mk [] []))
    have hseqne : (sq.map sortProps).reverse ≠ [] := by simpa using hsq
    obtain ⟨s', f1, s1', f2, f3, f4, f5⟩ := hch ch (fun c hc => hc) [] (sq.map sortProps) (.D ')' :: ts)
      ⟨st1.gameTree :: st1.stack, some (.mk [] []), some ((sq.map sortProps).reverse ++ []), b'⟩
      ⟨st1.gameTree :: st1.stack, some (.mk (sq.map sortProps) []), none, b'⟩
      (by
        rw [List.append_nil]
        unfold PState.closeSequence
        simp only
        rcases hr : (sq.map sortProps).reverse with _ | ⟨a, l⟩
        · exact absurd hr hseqne
        · simp only
          rw [← hr, List.reverse_reverse])
      rfl rfl rfl
    have hall : parseLoop ((CTree.mk sq ch).toks ++ ts) none st = parseLoop (.D ')' :: ts) none s' := by
      rw [CTree.toks, List.cons_append, hopen, List.append_assoc, List.append_assoc, List.singleton_append, hu, hseq, ← hu, f1]
    rw [hall]
    rw [List.nil_append] at f4
    have hnorm : (CTree.mk sq ch).norm = .mk (sq.map sortProps) (ch.map CTree.norm) := by
      rw [CTree.norm, normList_eq]
    rw [hnorm]
    constructor
    · intro sq0 ch0 hgt
      have f5' : s1'.stack = some (.mk sq0 ch0) :: st1.stack := by rw [f5, hgt]
      rw [parseLoop]
      simp only [PState.delim, f2, f5', f4, f3, bind, Except.bind, pure, Except.pure]
      rfl
    · intro hgt
      have f5' : s1'.stack = none :: st1.stack := by rw [f5, hgt]
      rw [parseLoop]
      simp only [PState.delim, f2, f5', f4, f3, bind, Except.bind, pure, Except.pure]
      rfl

theorem parseGame_tree {t : CTree} (h : ValidTree t) {s r : Str} (hl : Lexes t.toks s r) :
    parseGame s = .ok (some (t.norm, r)) := by
  unfold parseGame
  simp only [tokenise_tree h hl]
  have hne : t.toks ≠ [] := by cases h; simp [CTree.toks]
  rw [if_neg hne]
  have := (parseLoop_tree h [] PState.init PState.init rfl rfl).2 rfl
  rw [List.append_nil] at this
  rw [this]
  simp

theorem serialise_lexes {t : CTree} (h : ValidTree t) (wrap : Option Int) (r : Str) :
    ∃ w, (∀ c ∈ w, c = '\n') ∧ Lexes t.toks (serialise t wrap ++ r) (w ++ r) := by
  obtain ⟨w, hw, hl⟩ := (serialise_weave t wrap).lexes (piecesToks_tree h) r
  refine ⟨w, ?_, hl⟩
  clear hl
  have : ∀ ps s, Weave ps s → (∀ p ∈ ps, ∀ c ∈ p, c = '\n') → ∀ c ∈ s, c = '\n' := by
    intro ps s h hp
    induction h with
    | nil => simp
    | @piece p ps s _ ih =>
      intro c hc
      rcases List.mem_append.1 hc with hc | hc
      · exact hp p (by simp) c hc
      · exact ih (fun q hq => hp q (List.mem_cons_of_mem _ hq)) c hc
    | @newline ps s _ ih =>
      intro c hc
      rcases List.mem_cons.1 hc with hc | hc
      · exact hc
      · exact ih hp c hc
  exact this _ _ hw (by simp)

/-! ### equality of trees up to the order of the property maps -/

theorem lookup_perm {m m' : PropMap} (hp : m.Perm m') (hn : (m.map (·.1)).Nodup) : SameMap m m' := by
  intro i
  induction hp with
  | nil => rfl
  | cons x _ ih =>
    simp only [lookup]
    rw [List.map_cons, List.nodup_cons] at hn
    rw [ih hn.2]
  | swap x y l =>
    simp only [lookup]
    simp only [List.map_cons, List.nodup_cons, List.mem_cons, not_or] at hn
    split
    · rename_i h1
      split
      · rename_i h2
        exact absurd (h1.trans h2.symm) hn.1.1
      · rfl
    · rfl
  | trans h1 _ ih1 ih2 =>
    exact (ih1 hn).trans (ih2 (((h1.map _).nodup_iff).1 hn))

theorem sameTree_norm {t : CTree} (h : ValidTree t) : SameTree t t.norm := by
  induction h with
  | @mk sq ch _ hm _ ih =>
    rw [CTree.norm, normList_eq]
    refine .mk (by simp) ?_ (by simp) ?_
    · intro i hi hi'
      rw [List.getElem_map]
      exact lookup_perm (sortProps_perm _).symm (hm _ (List.getElem_mem _)).keys
    · intro i hi hi'
      rw [List.getElem_map]
      exact ih _ (List.getElem_mem _)

end Gomill.Sgf
