import Verif.Model.GtpSave
import Verif.Props.SgfRunner
import Verif.Props.GtpState
/-
Lemmas for C56 (gomill-savesgf).
-/
namespace Gomill.Sgf
open Py

/-- The main sequence of a coarse tree. -/
theorem mainSequence_coarse : ∀ t : CTree, mainSequenceIter t.coarse = t.mainSequence
  | .mk s [] => rfl
  | .mk s (c :: cs) => by
    have ih := mainSequence_coarse c
    simp only [CTree.coarse, CTree.coarse.coarseList, mainSequenceIter, CTree.mainSequence, ih]

theorem map_props_of_get {h : Heap PropMap} : ∀ (l : List Nat) (k : List PropMap),
    l.map (fun j => (h[j]?).map NodeRec.props) = k.map some → l.map h.props = k := by
  intro l
  induction l with
  | nil => intro k hk; cases k with
    | nil => rfl
    | cons _ _ => simp at hk
  | cons i l ih =>
    intro k hk
    cases k with
    | nil => simp at hk
    | cons m k =>
      simp only [List.map_cons, List.cons.injEq] at hk ⊢
      refine ⟨?_, ih k hk.2⟩
      unfold Heap.props
      cases hi : h[i]? with
      | none => rw [hi] at hk; cases hk.1
      | some r => rw [hi] at hk; simpa using hk.1

theorem parsed_nonempty {t : CTree} (h : ParsedTree t) : t.coarse.Nonempty := by
  induction h with
  | @mk sq ch h1 h2 h3 ih =>
    rw [CTree.coarse, coarseList_eq]
    cases sq with
    | nil => exact absurd rfl h1
    | cons p s =>
      refine .mk ?_
      intro c hc
      obtain ⟨d, hd, rfl⟩ := List.mem_map.1 hc
      exact ih d hd

/-- Loading a file for loadsgf, and for use with the SGF library. -/
theorem fromString_game {E : Encodings} {F : Floats} {codec : Str → Bool} (hcodec : ∀ e n, E.normalise e = some n → codec e = true) {L L' : Lib} {s : Str}
    {g : GameRec} (h : L.fromString E F s none = .ok L') (hg : L'.games = L.games ++ [g]) :
    ∃ game, SgfGame.fromString codec s = .ok game ∧ game.size = g.presenter.size ∧ game.tree.mainSequence = L'.mainSequence g ∧
      game.root = L'.heap.props g.root := by
  unfold Lib.fromString at h
  rcases C17_total s with ⟨t, ht, hpt⟩ | ht
  · rw [ht] at h
    simp only [bind, Except.bind] at h
    obtain ⟨root, sq, ch, size, e, P, n, h', rfl, a1, a2, a3, a4, a5, a6, a7, rfl⟩ := load_ok h
    have hge : g = ⟨P, n, L.heap.length⟩ := by simpa using hg.symm
    subst hge
    obtain ⟨h'', c1, c2⟩ := C23_expansion L.heap L.games.length root sq (CTree.coarse.coarseList ch) (parsed_nonempty hpt)
    have c1' : makeTree (CTree.mk (root :: sq) ch).coarse (L.heap.newRoot L.games.length root) L.heap.length = .ok h'' := c1
    rw [show (loadRoot P n root none).1 = root from rfl] at a7
    rw [a7] at c1'
    cases c1'
    have hms : (CTree.mk (root :: sq) ch).mainSequence = Lib.mainSequence ⟨h', L.games ++ [⟨P, n, L.heap.length⟩]⟩ ⟨P, n, L.heap.length⟩ := by
      rw [← mainSequence_coarse]
      exact (map_props_of_get _ _ c2).symm
    refine ⟨⟨size, .mk (root :: sq) ch⟩, ?_, by rw [a4]; rfl, hms, ?_⟩
    · have h1 := loadSize_iff.2 a1
      have hdef : SgfGame.fromCoarse codec (.mk (root :: sq) ch) = (loadSize root).bind fun size => (loadEncoding root none).bind fun e =>
          if ¬ (1 ≤ size ∧ size ≤ 26) then .error .valueError else if !codec e then .error .valueError else .ok ⟨size, .mk (root :: sq) ch⟩ := by
        unfold SgfGame.fromCoarse loadSize loadEncoding
        simp only [CTree.sequence, bind, Except.bind]
        cases root.find ['S', 'Z'] with
        | none =>
          simp only
          cases root.find ['C', 'A'] with
          | none => simp only; split <;> rfl
          | some vs =>
            simp only
            cases firstValue vs with
            | error e => rfl
            | ok v => simp only; split <;> rfl
        | some ws =>
          simp only
          cases firstValue ws with
          | error e => rfl
          | ok w =>
            simp only
            cases parseInt w with
            | error e => rfl
            | ok z =>
              simp only
              cases root.find ['C', 'A'] with
              | none => simp only; split <;> rfl
              | some vs =>
                simp only
                cases firstValue vs with
                | error e => rfl
                | ok v => simp only; split <;> rfl
      unfold SgfGame.fromString
      rw [ht]
      simp only [bind, Except.bind]
      rw [hdef, h1, a5]
      simp only [Except.bind, hcodec e n a6]
      rw [if_neg (by omega)]
      rfl
    · rw [mainSequence_cons] at hms
      obtain ⟨tl, htl⟩ : ∃ tl, (CTree.mk (root :: sq) ch).mainSequence = root :: tl := by cases ch <;> exact ⟨_, rfl⟩
      rw [htl] at hms
      exact (List.cons.inj hms).1
  · rw [ht] at h; cases h

end Gomill.Sgf

namespace Gomill.Gtp
open Py Sgf

/-! ### the extra arguments -/

/-- How to write a value as an argument of gomill-savesgf: double the backslashes, and then use `\_` for spaces. -/
def encodeArg (value : Str) : Str := value.flatMap (fun c => if c = '\\' then ['\\', '\\'] else if c = ' ' then ['\\', '_'] else [c])

/-- The value has a backslash followed by an underscore (such values can't be passed as arguments). -/
def BackslashUnderscore (value : Str) : Prop := ∃ l r, value = l ++ ['\\', '_'] ++ r

theorem replacePair_cons_ne {x y z a : Char} (h : a ≠ x) : ∀ l, replacePair x y z (a :: l) = a :: replacePair x y z l
  | [] => rfl
  | b :: l => by rw [replacePair, if_neg (by tauto)]

theorem replacePair_first (value : Str) (h : ¬ BackslashUnderscore value) :
    replacePair '\\' '_' ' ' (encodeArg value) = value.flatMap (fun c => if c = '\\' then ['\\', '\\'] else [c]) := by
  induction value with
  | nil => rfl
  | cons c v ih =>
    have hv : ¬ BackslashUnderscore v := by
      rintro ⟨l, r, e⟩
      exact h ⟨c :: l, r, by rw [e]; rfl⟩
    have ih := ih hv
    unfold encodeArg at ih ⊢
    rw [List.flatMap_cons, List.flatMap_cons]
    by_cases h1 : c = '\\'
    · subst h1
      simp only [if_true, List.cons_append, List.nil_append]
      rw [replacePair, if_neg (by decide)]
      congr 1
      cases v with
      | nil => rfl
      | cons d v =>
        rw [List.flatMap_cons] at ih ⊢
        by_cases h2 : d = '\\'
        · subst h2
          simp only [if_true, List.cons_append, List.nil_append] at ih ⊢
          rw [replacePair, if_neg (by decide), ih]
        · by_cases h3 : d = ' '
          · subst h3
            simp only [h2, if_true, if_false, List.cons_append, List.nil_append] at ih ⊢
            rw [replacePair, if_neg (by decide), ih]
          · simp only [h2, h3, if_false, List.cons_append, List.nil_append] at ih ⊢
            have h4 : d ≠ '_' := by
              rintro rfl
              exact h ⟨[], v, rfl⟩
            rw [replacePair, if_neg (by tauto), ih]
    · by_cases h2 : c = ' '
      · subst h2
        simp only [h1, if_true, if_false, List.cons_append, List.nil_append]
        rw [replacePair, if_pos ⟨rfl, rfl⟩, ih]
      · simp only [h1, h2, if_false, List.cons_append, List.nil_append]
        rw [replacePair_cons_ne h1, ih]

theorem replacePair_second (value : Str) : replacePair '\\' '\\' '\\' (value.flatMap (fun c => if c = '\\' then ['\\', '\\'] else [c])) = value := by
  induction value with
  | nil => rfl
  | cons c v ih =>
    rw [List.flatMap_cons]
    by_cases h1 : c = '\\'
    · subst h1
      simp only [if_true, List.cons_append, List.nil_append]
      rw [replacePair, if_pos ⟨rfl, rfl⟩, ih]
    · simp only [h1, if_false, List.cons_append, List.nil_append]
      rw [replacePair_cons_ne h1, ih]

/-- `arg` gives the property `x.1` the value `x.2`. -/
def ExtraArg (arg : Str) (x : Str × Str) : Prop :=
  ∃ letters : Str, arg = letters ++ ['='] ++ encodeArg x.2 ∧ 1 ≤ letters.length ∧ letters.length ≤ 64 ∧ (∀ c ∈ letters, c.isAlpha = true) ∧
    x.1 = letters.map Char.toUpper ∧ ¬ BackslashUnderscore x.2

theorem span_eq {a : Str} (h : ∀ c ∈ a, c ≠ '=') (b : Str) : (a ++ '=' :: b).span (fun c => c ≠ '=') = (a, '=' :: b) := by
  rw [List.span_eq_takeWhile_dropWhile]
  induction a with
  | nil => simp
  | cons c a ih =>
    have hc := h c (by simp)
    have := ih (fun d hd => h d (List.mem_cons_of_mem _ hd))
    simp only [Prod.mk.injEq] at this
    rw [List.cons_append, List.takeWhile_cons_of_pos (by simpa using hc), List.dropWhile_cons_of_pos (by simpa using hc), this.1, this.2]

theorem parseExtra_of {arg : Str} {x : Str × Str} (h : ExtraArg arg x) : parseExtra arg = some x := by
  obtain ⟨i, rfl, h1, h2, h3, h4, h5⟩ := h
  obtain ⟨k, v⟩ := x
  simp only at h4 h5 ⊢
  subst h4
  have hne : ∀ c ∈ i, c ≠ '=' := by
    rintro c hc rfl
    exact absurd (h3 _ hc) (by decide)
  unfold parseExtra
  rw [List.append_assoc, List.singleton_append, span_eq hne]
  simp only
  rw [if_pos ⟨by rintro rfl; simp at h1, by rw [List.all_eq_true]; exact h3⟩, replacePair_first _ h5, replacePair_second]

theorem upper_ascii : ∀ n : Fin 128, (Char.ofNat n).isAlpha = true → 'A' ≤ (Char.ofNat n).toUpper ∧ (Char.ofNat n).toUpper ≤ 'Z' := by decide +kernel

theorem upper_range {c : Char} (h : c.isAlpha = true) : 'A' ≤ c.toUpper ∧ c.toUpper ≤ 'Z' := by
  have hlt : c.toNat < 128 := by
    unfold Char.isAlpha Char.isUpper Char.isLower at h
    simp only [Bool.or_eq_true, decide_eq_true_eq, Bool.and_eq_true, UInt32.le_iff_toNat_le, ge_iff_le] at h
    have h1 : 'Z'.val.toNat = 90 := rfl
    have h2 : 'z'.val.toNat = 122 := rfl
    show c.val.toNat < 128
    omega
  have := upper_ascii ⟨c.toNat, hlt⟩
  simp only [Char.ofNat_toNat] at this
  exact this h

theorem extra_ident {arg : Str} {x : Str × Str} (h : ExtraArg arg x) : ValidIdent x.1 := by
  obtain ⟨i, _, h1, h2, h3, h4, _⟩ := h
  rw [h4]
  refine ⟨by simpa using h1, by simpa using h2, ?_⟩
  intro c hc
  obtain ⟨d, hd, rfl⟩ := List.mem_map.1 hc
  exact upper_range (h3 d hd)

/-- The value that the last of the arguments for the property gives it. -/
def LastExtra (xs : List (Str × Str)) (k v : Str) : Prop := ∃ l r, xs = l ++ (k, v) :: r ∧ ∀ y ∈ r, y.1 ≠ k

theorem setExtras_spec {E : Encodings} {F : Floats} (hF : ∀ q, ∀ c ∈ F.repr q, c ≠ ']' ∧ c ≠ '\\') {L0 : Lib} {g : GameRec} {seq : List PropMap} :
    ∀ {args : List Str} {xs : List (Str × Str)}, List.Forall₂ ExtraArg args xs → (∀ x ∈ xs, x.1 ≠ ['S', 'Z']) → ∀ {L : Lib} {m : PropMap},
      At E F L0 L g (m :: seq) →
      ∃ L' m', setExtras g args L = .ok L' ∧ At E F L0 L' g (m' :: seq) ∧ (∀ k, (∀ x ∈ xs, x.1 ≠ k) → lookup m' k = lookup m k) ∧
        ∀ k v, LastExtra xs k v → lookup m' k = some [escapeText v] := by
  intro args xs h
  induction h with
  | nil =>
    intro _ L m hL
    refine ⟨L, m, rfl, hL, fun _ _ => rfl, ?_⟩
    rintro k v ⟨l, r, e, _⟩
    simp at e
  | @cons arg x args xs h1 h2 ih =>
    intro hsz L m hL
    have hid := extra_ident h1
    have hset : setRaw g.presenter m x.1 (escapeText x.2) = (m.assign x.1 [escapeText x.2], .ok ()) := by
      unfold setRaw setRawListUnchecked
      rw [(C19_valid x.2).2, (isValidIdent_iff x.1).2 hid]
      have := hsz x (by simp)
      simp [this]
    obtain ⟨L1, e1, e2⟩ := hL.root hF (.setRaw x.1 (escapeText x.2)) (by simp only [NodeOp.apply]; rw [hset])
    simp only [NodeOp.apply] at e1 e2
    rw [hset] at e2
    obtain ⟨L2, m', f1, f2, f3, f4⟩ := ih (fun y hy => hsz y (List.mem_cons_of_mem _ hy)) e2
    refine ⟨L2, m', ?_, f2, ?_, ?_⟩
    · unfold setExtras
      rw [parseExtra_of h1]
      simp only [e1, raised, bind, Except.bind]
      exact f1
    · intro k hk
      rw [f3 k (fun y hy => hk y (List.mem_cons_of_mem _ hy)), lookup_assign, if_neg]
      intro e
      exact hk x (by simp) e.symm
    · rintro k v ⟨l, r, e, hr⟩
      cases l with
      | nil =>
        simp only [List.nil_append, List.cons.injEq] at e
        obtain ⟨rfl, rfl⟩ := e
        rw [f3 k hr, lookup_assign, if_pos rfl]
      | cons y l =>
        simp only [List.cons_append, List.cons.injEq] at e
        obtain ⟨rfl, rfl⟩ := e
        exact f4 k v ⟨l, r, rfl, hr⟩

/-! ### komi and handicap -/

/-- The komi is a float in the permitted range, and the handicap isn't 0 or 1. -/
structure KomiHandicap (isFloat : Rat → Prop) (s : GS) : Prop where
  float : isFloat s.komi
  lo : -625 ≤ s.komi
  hi : s.komi ≤ 625
  handicap : s.handicap ≠ some 0 ∧ s.handicap ≠ some 1

theorem clampKomi_range (f : Rat) : -625 ≤ clampKomi f ∧ clampKomi f ≤ 625 := by
  unfold clampKomi
  split
  · constructor <;> norm_num
  · split
    · constructor <;> norm_num
    · constructor <;> linarith

theorem clampKomi_id {f : Rat} (h1 : -625 ≤ f) (h2 : f ≤ 625) : clampKomi f = f := by
  unfold clampKomi
  rw [if_neg (by linarith), if_neg (by linarith)]

theorem clampKomi_float {isFloat : Rat → Prop} (h1 : isFloat 625) (h2 : isFloat (-625)) {f : Rat} (h : isFloat f) : isFloat (clampKomi f) := by
  unfold clampKomi
  split
  · exact h2
  · split
    · exact h1
    · exact h

theorem KomiHandicap.same {isFloat : Rat → Prop} {s s' : GS} (h : KomiHandicap isFloat s) (h1 : s'.komi = s.komi) (h2 : s'.handicap = s.handicap) :
    KomiHandicap isFloat s' := ⟨by rw [h1]; exact h.float, by rw [h1]; exact h.lo, by rw [h1]; exact h.hi, by rw [h2]; exact h.handicap⟩

theorem KomiHandicap.some {isFloat : Rat → Prop} {s s' : GS} (h : KomiHandicap isFloat s) (h1 : s'.komi = s.komi) {k : Int} (h2 : s'.handicap = some k)
    (hk : 2 ≤ k) : KomiHandicap isFloat s' :=
  ⟨by rw [h1]; exact h.float, by rw [h1]; exact h.lo, by rw [h1]; exact h.hi, by rw [h2]; constructor <;> simp <;> omega⟩

theorem KomiHandicap.none {isFloat : Rat → Prop} {s s' : GS} (h : KomiHandicap isFloat s) (h1 : s'.komi = s.komi) (h2 : s'.handicap = none) :
    KomiHandicap isFloat s' := ⟨by rw [h1]; exact h.float, by rw [h1]; exact h.lo, by rw [h1]; exact h.hi, by rw [h2]; simp⟩

theorem points_two {k : Int} {n : Nat} {l : List Pt} (h : Handicap.points k n = .ok l) : 2 ≤ k := by
  rcases C15_handicap_points k n with ⟨m, hm, h2, _⟩ | ⟨h', _⟩
  · exact h2
  · rw [h] at h'; cases h'

theorem reset_komiHandicap {isFloat : Rat → Prop} {s s' s0 : GS} {o : Option Exc} (h : KomiHandicap isFloat s0) (hk : s.komi = s0.komi)
    (hh : s.handicap = s0.handicap) (hr : s.reset = (s', o)) : KomiHandicap isFloat s' := by
  unfold GS.reset at hr
  split at hr <;> cases hr
  · exact h.same hk hh
  · exact h.none hk rfl

theorem step_komiHandicap {isFloat : Rat → Prop} (h0 : isFloat 0) (hmax : isFloat 625) (hmin : isFloat (-625)) {n : Nat} {env : Env}
    (hr : ∀ a f, env.readFloat a = Option.some f → isFloat f) {s s' : GS} {c : Cmd} {args : List Str} {o : Outcome} (hi : Inv n s)
    (hk : KomiHandicap isFloat s) (h : s.step env c args = (s', o)) : KomiHandicap isFloat s' := by
  have hmoved : (s' = s ∨ ∃ m, Moved n s s' m) → KomiHandicap isFloat s' := by
    rintro (rfl | ⟨m, hm⟩)
    · exact hk
    · have := hm.frame
      exact hk.same (by rw [this]) (by rw [this])
  cases c <;> simp only [GS.step] at h
  · unfold GS.boardsize err at h
    split at h
    · cases h; exact hk
    · split at h
      · cases h; exact hk
      · split at h
        · cases h; exact hk
        · split at h <;> rename_i hx
          · cases h; refine reset_komiHandicap (s0 := s) hk ?_ ?_ hx <;> rfl
          · cases h; refine reset_komiHandicap (s0 := s) hk ?_ ?_ hx <;> rfl
  · unfold GS.clearBoard at h
    split at h <;> rename_i hx
    · cases h; exact reset_komiHandicap (s0 := s) hk rfl rfl hx
    · cases h; exact reset_komiHandicap (s0 := s) hk rfl rfl hx
  · unfold GS.setKomi err at h
    split at h
    · cases h; exact hk
    · split at h
      · cases h; exact hk
      · rename_i f hf
        cases h
        exact ⟨clampKomi_float hmax hmin (hr _ _ hf), (clampKomi_range f).1, (clampKomi_range f).2, hk.handicap⟩
  · rcases fixedHandicap_spec hi h with ⟨_, rfl⟩ | ⟨h1, _, _, k, l, _, _, _, h3, _, _, _, h2⟩
    · exact hk
    · obtain ⟨b, rfl⟩ := h2.eq
      exact hk.some rfl rfl (points_two h3)
  · rcases setFreeHandicap_spec hi h with ⟨h1, rfl | ⟨_, b, _, rfl⟩⟩ | ⟨h1, ps, _, _, _, h3, _, _, h2⟩
    · exact hk
    · exact hk.none rfl rfl
    · obtain ⟨b, rfl⟩ := h2.eq
      exact hk.some rfl rfl (by omega)
  · rcases placeFreeHandicap_spec hi h with ⟨_, rfl⟩ | ⟨h1, _, _, k, k', k'', l, _, _, _, h4, _, h3, _, _, _, h2⟩
    · exact hk
    · obtain ⟨b, rfl⟩ := h2.eq
      exact hk.some rfl rfl (by have := points_two h3; omega)
  · rcases play_spec hi h with ⟨_, h⟩ | ⟨h1, _, _, _, _, _, _, _, _, h2⟩
    · exact hmoved (.inl h)
    · exact hmoved (.inr ⟨_, h2⟩)
  · rcases genmove_spec hi h with h | ⟨h1, _, h2⟩
    · exact hmoved (.inl h)
    · exact hmoved (.inr h2)
  · rcases genmoveEx_spec hi h with h | ⟨h1, h2⟩
    · exact hmoved (.inl h)
    · exact hmoved (.inr h2)
  · rcases genmove_spec hi h with h | ⟨h1, _, h2⟩
    · exact hmoved (.inl h)
    · exact hmoved (.inr h2)
  · rcases undo_spec (args := args) hi with ⟨_, h'⟩ | ⟨l, m, b, ko, pl, _, _, h', h''⟩
    · rw [h'] at h; cases h; exact hk
    · rw [h'] at h; cases h; exact hk.same rfl rfl
  · rcases loadsgf_spec hi h with ⟨h1, ⟨h2, _⟩, _⟩ | ⟨h1, h2, path, rest, text, mn, game, _, _, _, _, h3⟩
    · exact hk.same (by rw [h2]) (by rw [h2])
    · obtain ⟨_, ⟨komi, e1, e2⟩, e3, _⟩ := h3
      rw [← clampKomi_eq] at e2
      have hf : isFloat komi := by
        unfold SgfGame.getKomi at e1
        split at e1
        · cases e1; exact h0
        · simp only [bind, Except.bind] at e1
          split at e1
          · cases e1
          · split at e1
            · rename_i f hf
              cases e1
              exact hr _ _ hf
            · cases e1
      refine ⟨by rw [e2]; exact clampKomi_float hmax hmin hf, by rw [e2]; exact (clampKomi_range _).1, by rw [e2]; exact (clampKomi_range _).2, ?_⟩
      rcases e3 with ⟨e3, _⟩ | ⟨k, e3, e4⟩
      · rw [e3]; simp
      · rw [e3]
        unfold SgfGame.getHandicap at e4
        split at e4
        · cases e4
        · simp only [bind, Except.bind, pure, Except.pure, throw, throwThe, MonadExceptOf.throw] at e4
          split at e4
          · cases e4
          · split at e4
            · cases e4
            · split at e4
              · cases e4
              · split at e4
                · cases e4
                · rename_i q1 q2
                  cases e4
                  simpa using ⟨q1, q2⟩
  · unfold GS.timeLeft err at h
    split at h
    · split at h
      · cases h; exact hk.same rfl rfl
      · cases h; exact hk
    · cases h; exact hk
  · unfold GS.setTime err at h
    split at h
    · split at h
      · cases h; exact hk.same rfl rfl
      · cases h; exact hk
    · cases h; exact hk
  · obtain ⟨h1, rfl⟩ := explain_spec h
    exact hk

theorem reached_komiHandicap {isFloat : Rat → Prop} (h0 : isFloat 0) (hmax : isFloat 625) (hmin : isFloat (-625)) {env : Env}
    (hr : ∀ a f, env.readFloat a = Option.some f → isFloat f) {acceptable : List Int} {s : GS} (h : Reached env acceptable s) :
    KomiHandicap isFloat s := by
  induction h with
  | start h =>
    unfold GS.init at h
    simp only [bind, Except.bind, pure, Except.pure] at h
    split at h
    · cases h
    · split at h
      · cases h
      · cases h
        exact ⟨h0, by norm_num, by norm_num, by simp⟩
  | step h1 h2 _ ih =>
    obtain ⟨n, hi⟩ := h1.inv
    exact step_komiHandicap h0 hmax hmin hr hi ih h2

end Gomill.Gtp
