import Verif.Spec.SgfGame
import Verif.Lemmas.SgfGame
import Verif.Lemmas.SgfCodec
/-
Converting serialised games from one ASCII-compatible encoding to another.
-/
namespace Gomill.Sgf

open Py

/-- Conversions which leave ASCII characters alone. -/
structure AsciiMap (T : Str → Option Str) : Prop where
  nil : T [] = some []
  split : ∀ x c y, c.toNat < 128 → T (x ++ c :: y) = (T x).bind (fun a => (T y).map (fun b => a ++ c :: b))
  high : ∀ x a, (∀ c ∈ x, 128 ≤ c.toNat) → T x = some a → ∀ c ∈ a, 128 ≤ c.toNat
  nonempty : ∀ x, T x = some [] → x = []

theorem asciiMap_transcode {a b : Codec} (ha : Transcodable a) (hb : Transcodable b) : AsciiMap (transcode a b) where
  nil := by unfold transcode; rw [ha.nil, Option.bind_some, hb.enc_nil]
  split := by
    intro x c y hc
    unfold transcode
    rw [ha.ascii x c y hc]
    cases a.dec x with
    | none => rfl
    | some u =>
      rw [Option.bind_some, Option.bind_some]
      cases a.dec y with
      | none => cases b.enc u <;> rfl
      | some w => rw [Option.map_some, Option.bind_some, Option.bind_some, hb.enc_ascii u c w hc]
  high := by
    intro x r hx h
    unfold transcode at h
    obtain ⟨u, h1, h2⟩ := Option.bind_eq_some_iff.1 h
    exact hb.enc_high u r (ha.high x u hx h1) h2
  nonempty := by
    intro x h
    unfold transcode at h
    obtain ⟨u, h1, h2⟩ := Option.bind_eq_some_iff.1 h
    have := hb.enc_nonempty u h2
    subst this
    exact ha.nonempty x h1

section
variable {T : Str → Option Str} (hT : AsciiMap T)
include hT

theorem T_cons {c : Char} (hc : c.toNat < 128) (y : Str) : T (c :: y) = (T y).map (c :: ·) := by
  have := hT.split [] c y hc
  rw [List.nil_append, hT.nil, Option.bind_some] at this
  exact this

theorem T_snoc {c : Char} (hc : c.toNat < 128) (x : Str) : T (x ++ [c]) = (T x).map (· ++ [c]) := by
  rw [hT.split x c [] hc, hT.nil]
  cases T x <;> rfl

theorem T_ascii : ∀ {s : Str}, (∀ c ∈ s, c.toNat < 128) → T s = some s
  | [], _ => hT.nil
  | c :: s, h => by
    rw [T_cons hT (h c (by simp)), T_ascii (fun d hd => h d (List.mem_cons_of_mem _ hd))]
    rfl

theorem T_ascii_append {s : Str} (h : ∀ c ∈ s, c.toNat < 128) (y : Str) : T (s ++ y) = (T y).map (s ++ ·) := by
  induction s with
  | nil => rw [List.nil_append]; cases T y <;> rfl
  | cons c s ih =>
    rw [List.cons_append, T_cons hT (h c (by simp)), ih (fun d hd => h d (List.mem_cons_of_mem _ hd))]
    cases T y <;> rfl
end

/-- The same ASCII characters, with runs of other characters in the same places. -/
inductive HighEq : Str → Str → Prop
  | nil : HighEq [] []
  | ascii {c : Char} {s s' : Str} : c.toNat < 128 → HighEq s s' → HighEq (c :: s) (c :: s')
  | run {x x' s s' : Str} : x ≠ [] → x' ≠ [] → (∀ c ∈ x, 128 ≤ c.toNat) → (∀ c ∈ x', 128 ≤ c.toNat) → HighEq s s' →
      HighEq (x ++ s) (x' ++ s')

theorem HighEq.symm {s s' : Str} (h : HighEq s s') : HighEq s' s := by
  induction h with
  | nil => exact .nil
  | ascii hc _ ih => exact .ascii hc ih
  | run h1 h2 h3 h4 _ ih => exact .run h2 h1 h4 h3 ih

theorem highEq_T {T : Str → Option Str} (hT : AsciiMap T) : ∀ (n : Nat) (v v' : Str), v.length ≤ n → T v = some v' → HighEq v v' := by
  intro n
  induction n with
  | zero =>
    intro v v' hn h
    have : v = [] := by simpa using hn
    subst this
    rw [hT.nil] at h
    cases h
    exact .nil
  | succ n ih =>
    intro v v' hn h
    rcases split_ascii v with hh | ⟨x, c, y, rfl, hx, hc⟩
    · by_cases hv : v = []
      · subst hv
        rw [hT.nil] at h
        cases h
        exact .nil
      · have := HighEq.run (x := v) (x' := v') hv (by rintro rfl; exact hv (hT.nonempty v h)) hh (hT.high v v' hh h) .nil
        rwa [List.append_nil, List.append_nil] at this
    · rw [hT.split x c y hc] at h
      obtain ⟨a, h1, h2⟩ := Option.bind_eq_some_iff.1 h
      obtain ⟨b, h3, rfl⟩ := Option.map_eq_some_iff.1 h2
      have := HighEq.ascii hc (ih y b (by simp at hn; omega) h3)
      by_cases hx0 : x = []
      · subst hx0
        rw [hT.nil] at h1
        cases h1
        exact this
      · exact .run hx0 (by rintro rfl; exact hx0 (hT.nonempty x h1)) hx (hT.high x a hx h1) this

theorem highEq_ascii {s s' : Str} (h : HighEq s s') (ha : ∀ c ∈ s, c.toNat < 128) : s' = s := by
  induction h with
  | nil => rfl
  | ascii _ _ ih => rw [ih (fun c hc => ha c (List.mem_cons_of_mem _ hc))]
  | @run x x' s s' h1 _ h3 _ _ _ =>
    cases x with
    | nil => exact absurd rfl h1
    | cons d x =>
      have := h3 d (by simp)
      have := ha d (by simp)
      omega

theorem highEq_split {v w : Str} (h : HighEq v w) : ∀ {p' q' : Str} {c : Char}, c.toNat < 128 → w = p' ++ c :: q' →
    ∃ p q, v = p ++ c :: q ∧ HighEq p p' ∧ HighEq q q' := by
  induction h with
  | nil => intro p' q' c _ h; simp at h
  | @ascii d s s' hd hs ih =>
    intro p' q' c hc h
    cases p' with
    | nil =>
      simp only [List.nil_append, List.cons.injEq] at h
      obtain ⟨rfl, rfl⟩ := h
      exact ⟨[], s, rfl, .nil, hs⟩
    | cons e p' =>
      simp only [List.cons_append, List.cons.injEq] at h
      obtain ⟨rfl, h⟩ := h
      obtain ⟨p, q, rfl, h1, h2⟩ := ih hc h
      exact ⟨d :: p, q, rfl, .ascii hd h1, h2⟩
  | @run x x' s s' h1 h2 h3 h4 hs ih =>
    intro p' q' c hc h
    have hp : ∃ r, p' = x' ++ r ∧ s' = r ++ c :: q' := by
      clear h2 ih hs
      induction x' generalizing p' with
      | nil => exact ⟨p', rfl, h⟩
      | cons e x' ih =>
        cases p' with
        | nil =>
          simp only [List.cons_append, List.nil_append, List.cons.injEq] at h
          have := h4 e (by simp)
          rw [h.1] at this
          omega
        | cons f p' =>
          simp only [List.cons_append, List.cons.injEq] at h
          obtain ⟨rfl, h⟩ := h
          obtain ⟨r, rfl, hr⟩ := ih (fun d hd => h4 d (List.mem_cons_of_mem _ hd)) h
          exact ⟨r, rfl, hr⟩
    obtain ⟨r, rfl, hr⟩ := hp
    obtain ⟨p, q, rfl, e1, e2⟩ := ih hc hr
    exact ⟨x ++ p, q, by simp, .run h1 h2 h3 h4 e1, e2⟩

/-- No unescaped `d`, no backslash without a character to escape. -/
inductive NoBare (d : Char) : Str → Prop
  | nil : NoBare d []
  | plain {c : Char} {s : Str} : c ≠ '\\' → c ≠ d → NoBare d s → NoBare d (c :: s)
  | escaped {c : Char} {s : Str} : NoBare d s → NoBare d ('\\' :: c :: s)

theorem noBare_value {s : Str} : NoBare ']' s ↔ ValidValue s := by
  constructor <;> intro h <;> induction h with
  | nil => exact .nil
  | plain h1 h2 _ ih => exact .plain h1 h2 ih
  | escaped _ ih => exact .escaped ih

theorem noBare_high {d : Char} (hd : d.toNat < 128) : ∀ {x s : Str}, (∀ c ∈ x, 128 ≤ c.toNat) → (NoBare d (x ++ s) ↔ NoBare d s)
  | [], s, _ => Iff.rfl
  | c :: x, s, h => by
    have hc := h c (by simp)
    have hn : ∀ e : Char, e.toNat < 128 → c ≠ e := by rintro e he rfl; omega
    rw [← noBare_high hd (x := x) (s := s) (fun d hd => h d (List.mem_cons_of_mem _ hd))]
    rw [List.cons_append]
    generalize x ++ s = r
    constructor
    · intro hh
      cases hh with
      | plain _ _ h => exact h
      | escaped _ => exact absurd rfl (hn '\\' (by decide))
    · exact .plain (hn _ (by decide)) (hn _ hd)

theorem noBare_highEq {d : Char} (hd : d.toNat < 128) {s s' : Str} (h : HighEq s s') :
    (NoBare d s → NoBare d s') ∧ (NoBare d ('\\' :: s) → NoBare d ('\\' :: s')) := by
  induction h with
  | nil => exact ⟨id, id⟩
  | ascii hc _ ih =>
    constructor
    · intro h
      cases h with
      | plain h1 h2 h => exact .plain h1 h2 (ih.1 h)
      | escaped h => exact ih.2 (.escaped h)
    · intro h
      cases h with
      | plain h1 => exact absurd rfl h1
      | escaped h => exact .escaped (ih.1 h)
  | @run x x' s s' h1 h2 h3 h4 _ ih =>
    constructor
    · intro h
      rw [noBare_high hd h4]
      exact ih.1 ((noBare_high hd h3).1 h)
    · intro h
      cases x with
      | nil => exact absurd rfl h1
      | cons e x =>
        cases x' with
        | nil => exact absurd rfl h2
        | cons e' x' =>
          cases h with
          | plain h1 => exact absurd rfl h1
          | escaped h =>
            refine .escaped ?_
            show NoBare d (x' ++ s')
            rw [noBare_high hd (fun c hc => h4 c (List.mem_cons_of_mem _ hc))]
            exact ih.1 ((noBare_high hd (fun c hc => h3 c (List.mem_cons_of_mem _ hc))).1 h)

theorem validValue_T {T : Str → Option Str} (hT : AsciiMap T) {v v' : Str} (hv : ValidValue v) (h : T v = some v') : ValidValue v' :=
  noBare_value.1 ((noBare_highEq (by decide) (highEq_T hT _ v v' (Nat.le_refl _) h)).1 (noBare_value.2 hv))

/-! ### pieces -/

/-- A string that ends in an ASCII character. -/
def Ends (p : Str) : Prop := ∃ q c, p = q ++ [c] ∧ c.toNat < 128

theorem T_ends {T : Str → Option Str} (hT : AsciiMap T) {p : Str} (hp : Ends p) (s : Str) :
    T (p ++ s) = (T p).bind (fun a => (T s).map (fun b => a ++ b)) := by
  obtain ⟨q, c, rfl, hc⟩ := hp
  rw [List.append_assoc, List.singleton_append, hT.split q c s hc, T_snoc hT hc]
  cases T q with
  | none => rfl
  | some a => cases T s <;> simp

theorem weave_T {T : Str → Option Str} (hT : AsciiMap T) {ps : List Str} {s : Str} (h : Weave ps s) (he : ∀ p ∈ ps, Ends p) :
    (∀ s', T s = some s' → ∀ p ∈ ps, ∃ p', T p = some p') ∧
    ∀ ps', List.Forall₂ (fun p p' => T p = some p') ps ps' → ∃ s', T s = some s' ∧ Weave ps' s' := by
  induction h with
  | nil =>
    refine ⟨by simp, ?_⟩
    intro ps' h
    cases h
    exact ⟨[], hT.nil, .nil⟩
  | @piece p ps s _ ih =>
    obtain ⟨ih1, ih2⟩ := ih (fun q hq => he q (List.mem_cons_of_mem _ hq))
    have e := T_ends hT (he p (by simp)) s
    constructor
    · intro s' hs'
      rw [e] at hs'
      obtain ⟨a, h1, h2⟩ := Option.bind_eq_some_iff.1 hs'
      obtain ⟨b, h3, _⟩ := Option.map_eq_some_iff.1 h2
      intro q hq
      rcases List.mem_cons.1 hq with rfl | hq
      · exact ⟨a, h1⟩
      · exact ih1 b h3 q hq
    · intro ps' h
      cases h with
      | @cons _ p' _ ps' hp hps =>
        obtain ⟨s', h1, h2⟩ := ih2 ps' hps
        exact ⟨p' ++ s', by rw [e, hp, h1]; rfl, .piece h2⟩
  | @newline ps s _ ih =>
    obtain ⟨ih1, ih2⟩ := ih he
    have e := T_cons hT (c := '\n') (by decide) s
    constructor
    · intro s' hs'
      rw [e] at hs'
      obtain ⟨b, h3, _⟩ := Option.map_eq_some_iff.1 hs'
      exact ih1 b h3
    · intro ps' h
      obtain ⟨s', h1, h2⟩ := ih2 ps' h
      exact ⟨'\n' :: s', by rw [e, h1]; rfl, .newline h2⟩

theorem ident_ascii {i : Str} (h : ValidIdent i) : ∀ c ∈ i, c.toNat < 128 := by
  intro c hc
  have := (h.2.2 c hc).2
  have : c.toNat ≤ 'Z'.toNat := this
  have : 'Z'.toNat = 90 := by decide
  omega

theorem T_values {T : Str → Option Str} (hT : AsciiMap T) : ∀ (vs : List Raw),
    (∀ s', T ((vs.map (fun v => ['['] ++ v ++ [']'])).flatten) = some s' → ∀ v ∈ vs, ∃ v', T v = some v') ∧
    ∀ vs', List.Forall₂ (fun v v' => T v = some v') vs vs' →
      T ((vs.map (fun v => ['['] ++ v ++ [']'])).flatten) = some ((vs'.map (fun v => ['['] ++ v ++ [']'])).flatten)
  | [] => by
    refine ⟨by simp, ?_⟩
    intro vs' h
    cases h
    exact hT.nil
  | v :: vs => by
    obtain ⟨ih1, ih2⟩ := T_values hT vs
    have e : ∀ r : Str, T (['['] ++ v ++ [']'] ++ r) = (T v).bind (fun a => (T r).map (fun b => ['['] ++ a ++ [']'] ++ b)) := by
      intro r
      rw [show ['['] ++ v ++ [']'] ++ r = '[' :: (v ++ ']' :: r) by simp, T_cons hT (by decide), hT.split v ']' r (by decide)]
      cases T v with
      | none => rfl
      | some a => cases T r <;> simp
    rw [List.map_cons, List.flatten_cons, e]
    constructor
    · intro s' hs'
      obtain ⟨a, h1, h2⟩ := Option.bind_eq_some_iff.1 hs'
      obtain ⟨b, h3, _⟩ := Option.map_eq_some_iff.1 h2
      intro q hq
      rcases List.mem_cons.1 hq with rfl | hq
      · exact ⟨a, h1⟩
      · exact ih1 b h3 q hq
    · intro vs' h
      cases h with
      | @cons _ v' _ vs' hp hps => rw [hp, ih2 vs' hps]; simp

theorem T_serProp {T : Str → Option Str} (hT : AsciiMap T) {p : Str × List Raw} (hi : ValidIdent p.1) :
    (∀ s', T (serProp p) = some s' → ∀ v ∈ p.2, ∃ v', T v = some v') ∧
    ∀ vs', List.Forall₂ (fun v v' => T v = some v') p.2 vs' → T (serProp p) = some (serProp (p.1, vs')) := by
  obtain ⟨h1, h2⟩ := T_values hT p.2
  unfold serProp
  rw [T_ascii_append hT (ident_ascii hi)]
  constructor
  · intro s' h
    obtain ⟨b, h3, _⟩ := Option.map_eq_some_iff.1 h
    exact h1 b h3
  · intro vs' h
    rw [h2 vs' h]
    rfl

/-! ### mapping the values of a tree -/

/-- Apply `f` to all values of a map. -/
def mapProps (f : Str → Str) (m : PropMap) : PropMap := List.map (fun p => (p.1, p.2.map f)) m

/-- Apply `f` to all values in a tree. -/
def CTree.mapVals (f : Str → Str) : CTree → CTree
  | .mk sq ch => .mk (sq.map (mapProps f)) (mapValsList ch)
where
  mapValsList : List CTree → List CTree
    | [] => []
    | t :: ts => t.mapVals f :: mapValsList ts

theorem mapValsList_eq (f : Str → Str) (ch : List CTree) : CTree.mapVals.mapValsList f ch = ch.map (CTree.mapVals f) := by
  induction ch with
  | nil => rfl
  | cons c ch ih => rw [CTree.mapVals.mapValsList, ih]; rfl

theorem sortProps_map (f : Str → Str) (m : PropMap) : sortProps (mapProps f m) = mapProps f (sortProps m) := by
  have hins : ∀ (x : Str × List Raw) (m : PropMap), insertProp (x.1, x.2.map f) (mapProps f m) = mapProps f (insertProp x m) := by
    intro x m
    induction m with
    | nil => rfl
    | cons y r ih =>
      unfold mapProps at ih ⊢
      rw [List.map_cons]
      unfold insertProp
      simp only
      split
      · rfl
      · rw [List.map_cons, ih]
  unfold sortProps
  induction m with
  | nil => rfl
  | cons x m ih =>
    have e : mapProps f (x :: m) = (x.1, x.2.map f) :: mapProps f m := rfl
    rw [e, List.foldr_cons, ih, List.foldr_cons, hins]

theorem lookup_mapProps (f : Str → Str) (m : PropMap) (k : Str) : lookup (mapProps f m) k = (lookup m k).map (List.map f) := by
  induction m with
  | nil => rfl
  | cons x m ih =>
    have e : mapProps f (x :: m) = (x.1, x.2.map f) :: mapProps f m := rfl
    rw [e, lookup, lookup, ih]
    split <;> rfl

theorem validMap_map {f : Str → Str} {m : PropMap} (h : ValidMap m) (hf : ∀ p ∈ m, ∀ v ∈ p.2, ValidValue (f v)) : ValidMap (mapProps f m) := by
  have hk : (mapProps f m).map (·.1) = List.map (·.1) m := by unfold mapProps; rw [List.map_map]; rfl
  refine ⟨by rw [hk]; exact h.keys, ?_, ?_, ?_⟩ <;>
  · intro p hp
    obtain ⟨q, hq, rfl⟩ := List.mem_map.1 hp
    first
      | exact h.idents q hq
      | (simp only [ne_eq, List.map_eq_nil_iff]; exact h.nonempty q hq)
      | (intro v hv
         obtain ⟨w, hw, rfl⟩ := List.mem_map.1 hv
         exact hf q hq w hw)

/-- All values of a tree can be converted. -/
def AllConv (T : Str → Option Str) (t : CTree) : Prop := ∀ m, InTree m t → ∀ p ∈ m, ∀ v ∈ p.2, ∃ v', T v = some v'

theorem allConv_mk {T : Str → Option Str} {sq : List PropMap} {ch : List CTree} :
    AllConv T (.mk sq ch) ↔ (∀ m ∈ sq, ∀ p ∈ m, ∀ v ∈ p.2, ∃ v', T v = some v') ∧ ∀ c ∈ ch, AllConv T c := by
  constructor
  · intro h
    exact ⟨fun m hm => h m (.here hm), fun c hc m hm => h m (.inChild hc hm)⟩
  · rintro ⟨h1, h2⟩ m hm
    cases hm with
    | here hm => exact h1 m hm
    | inChild hc hm => exact h2 _ hc m hm

theorem ends_pieces {t : CTree} (h : ValidTree t) : ∀ p ∈ t.pieces, Ends p := by
  have hD : ∀ c : Char, c.toNat < 128 → Ends [c] := fun c hc => ⟨[], c, rfl, hc⟩
  induction h with
  | @mk sq ch _ hm _ ih =>
    intro p hp
    unfold CTree.pieces at hp
    rw [List.mem_cons, List.mem_append, List.mem_append, List.mem_singleton] at hp
    rcases hp with rfl | (hp | hp) | rfl
    · exact hD _ (by decide)
    · unfold serSequence at hp
      obtain ⟨m, hmm, hp⟩ := List.mem_flatMap.1 hp
      rcases List.mem_cons.1 hp with rfl | hp
      · exact hD _ (by decide)
      · obtain ⟨q, hq, rfl⟩ := List.mem_map.1 hp
        have hq' := (sortProps_perm m).mem_iff.1 hq
        have hne := (hm m hmm).nonempty q hq'
        unfold serProp
        obtain ⟨i, vs⟩ := q
        simp only at hne ⊢
        obtain ⟨us, u, rfl⟩ : ∃ us u, vs = us ++ [u] := ⟨_, _, (List.dropLast_append_getLast hne).symm⟩
        exact ⟨i ++ (us.map (fun v => ['['] ++ v ++ [']'])).flatten ++ ['['] ++ u, ']', by simp, by decide⟩
    · rw [piecesList_eq] at hp
      obtain ⟨e, he, hp⟩ := List.mem_flatMap.1 hp
      obtain ⟨c, hc, rfl⟩ := List.mem_map.1 he
      exact ih c hc p hp
    · exact hD _ (by decide)

theorem pieces_conv {T : Str → Option Str} (hT : AsciiMap T) {t : CTree} (h : ValidTree t) (hp : ∀ p ∈ t.pieces, ∃ p', T p = some p') : AllConv T t := by
  induction h with
  | @mk sq ch _ hm _ ih =>
    rw [allConv_mk]
    constructor
    · intro m hmm p hpm v hv
      have hs := (sortProps_perm m).mem_iff.2 hpm
      obtain ⟨p', hp'⟩ := hp (serProp p) (by
        unfold CTree.pieces serSequence
        rw [List.mem_cons, List.mem_append, List.mem_append]
        exact Or.inr (Or.inl (Or.inl (List.mem_flatMap.2 ⟨m, hmm, List.mem_cons_of_mem _ (List.mem_map_of_mem hs)⟩))))
      exact (T_serProp hT ((hm m hmm).idents p hpm)).1 p' hp' v hv
    · intro c hc
      refine ih c hc ?_
      intro p hpc
      refine hp p ?_
      unfold CTree.pieces
      rw [List.mem_cons, List.mem_append, List.mem_append, piecesList_eq]
      exact Or.inr (Or.inl (Or.inr (List.mem_flatMap.2 ⟨some c, List.mem_map_of_mem hc, hpc⟩)))

theorem forall2_append {α β : Type} {R : α → β → Prop} {a c : List α} {b d : List β} (h1 : List.Forall₂ R a b) (h2 : List.Forall₂ R c d) :
    List.Forall₂ R (a ++ c) (b ++ d) := by
  induction h1 with
  | nil => exact h2
  | cons h _ ih => exact .cons h ih

theorem forall2_map {α : Type} {R : α → α → Prop} {l : List α} {f : α → α} (h : ∀ x ∈ l, R x (f x)) : List.Forall₂ R l (l.map f) := by
  induction l with
  | nil => exact .nil
  | cons x l ih => exact .cons (h x (by simp)) (ih fun y hy => h y (List.mem_cons_of_mem _ hy))

theorem forall2_flatMap {α β γ : Type} {R : β → γ → Prop} {l : List α} {f : α → List β} {g : α → List γ} (h : ∀ x ∈ l, List.Forall₂ R (f x) (g x)) :
    List.Forall₂ R (l.flatMap f) (l.flatMap g) := by
  induction l with
  | nil => exact .nil
  | cons x l ih =>
    rw [List.flatMap_cons, List.flatMap_cons]
    exact forall2_append (h x (by simp)) (ih fun y hy => h y (List.mem_cons_of_mem _ hy))

/-- The converted value. -/
def conv (T : Str → Option Str) (v : Str) : Str := (T v).getD []

theorem conv_spec {T : Str → Option Str} {v : Str} (h : ∃ v', T v = some v') : T v = some (conv T v) := by
  obtain ⟨v', h⟩ := h
  unfold conv
  rw [h]
  rfl

theorem pieces_map {T : Str → Option Str} (hT : AsciiMap T) {t : CTree} (h : ValidTree t) (hc : AllConv T t) :
    List.Forall₂ (fun p p' => T p = some p') t.pieces (t.mapVals (conv T)).pieces := by
  have hD : ∀ c : Char, c.toNat < 128 → T [c] = some [c] := fun c hc => T_ascii hT (by simpa using hc)
  induction h with
  | @mk sq ch _ hm _ ih =>
    obtain ⟨h1, h2⟩ := allConv_mk.1 hc
    unfold CTree.mapVals CTree.pieces
    refine .cons (hD _ (by decide)) (forall2_append (forall2_append ?_ ?_) (.cons (hD _ (by decide)) .nil))
    · unfold serSequence
      rw [List.flatMap_map]
      refine forall2_flatMap ?_
      intro m hmm
      refine .cons (hD _ (by decide)) ?_
      rw [sortProps_map]
      unfold mapProps
      rw [List.map_map, List.forall₂_map_left_iff, List.forall₂_map_right_iff, List.forall₂_same]
      intro p hp
      have hp' := (sortProps_perm m).mem_iff.1 hp
      refine (T_serProp hT ((hm m hmm).idents p hp')).2 _ ?_
      exact forall2_map (fun v hv => conv_spec (h1 m hmm p hp' v hv))
    · rw [mapValsList_eq, piecesList_eq, piecesList_eq, List.map_map, List.flatMap_map, List.flatMap_map]
      exact forall2_flatMap (fun c hc => ih c hc (h2 c hc))

theorem validTree_map {T : Str → Option Str} (hT : AsciiMap T) {t : CTree} (h : ValidTree t) (hc : AllConv T t) : ValidTree (t.mapVals (conv T)) := by
  induction h with
  | @mk sq ch h0 hm _ ih =>
    obtain ⟨h1, h2⟩ := allConv_mk.1 hc
    unfold CTree.mapVals
    rw [mapValsList_eq]
    refine .mk (by simpa using h0) ?_ ?_
    · intro m' hm'
      obtain ⟨m, hmm, rfl⟩ := List.mem_map.1 hm'
      exact validMap_map (hm m hmm) (fun p hp v hv => validValue_T hT ((hm m hmm).values p hp v hv) (conv_spec (h1 m hmm p hp v hv)))
    · intro c' hc'
      obtain ⟨c, hcc, rfl⟩ := List.mem_map.1 hc'
      exact ih c hcc (h2 c hcc)

/-- Converting a serialised tree: it works if all values can be converted, and the result is read as the converted tree. -/
theorem serialise_T {T : Str → Option Str} (hT : AsciiMap T) {t : CTree} (h : ValidTree t) (wrap : Option Int) :
    (∀ s', T (serialise t wrap) = some s' → AllConv T t) ∧
    (AllConv T t → ∃ s', T (serialise t wrap) = some s' ∧ parseSgfGame s' = .ok (t.mapVals (conv T)).norm) := by
  have hN : Ends ['\n'] := ⟨[], '\n', rfl, by decide⟩
  obtain ⟨w1, w2⟩ := weave_T hT (serialise_weave t wrap) (by
    intro p hp
    rcases List.mem_append.1 hp with hp | hp
    · exact ends_pieces h p hp
    · rw [List.mem_singleton] at hp
      rw [hp]; exact hN)
  constructor
  · intro s' hs'
    exact pieces_conv hT h (fun p hp => w1 s' hs' p (List.mem_append_left _ hp))
  · intro hc
    obtain ⟨s', h1, h2⟩ := w2 ((t.mapVals (conv T)).pieces ++ [['\n']]) (forall2_append (pieces_map hT h hc) (.cons (T_ascii hT (by decide)) .nil))
    refine ⟨s', h1, ?_⟩
    have hv := validTree_map hT h hc
    obtain ⟨w, _, hl⟩ := h2.lexes (piecesToks_tree hv) []
    rw [List.append_nil] at hl
    unfold parseSgfGame
    rw [parseGame_tree hv hl]
    rfl

theorem treeRel_mapVals {f : Str → Str} {R : PropMap → PropMap → Prop} {t : CTree} (h : ∀ m, InTree m t → R m (mapProps f m)) : ValidTree t →
    TreeRel R t (t.mapVals f) := by
  intro hv
  induction hv with
  | @mk sq ch _ _ _ ih =>
    unfold CTree.mapVals
    rw [mapValsList_eq]
    refine .mk (by simp) ?_ (by simp) ?_
    · intro i hi hi'
      rw [List.getElem_map]
      exact h _ (.here (List.getElem_mem _))
    · intro i hi hi'
      rw [List.getElem_map]
      exact ih _ (List.getElem_mem _) (fun m hm => h m (.inChild (List.getElem_mem _) hm))

theorem treeRel_trans {R S U : PropMap → PropMap → Prop} (hRS : ∀ a b c, R a b → S b c → U a c) {t t' : CTree} (h : TreeRel R t t') :
    ∀ {t'' : CTree}, TreeRel S t' t'' → TreeRel U t t'' := by
  induction h with
  | mk h1 h2 h3 _ ih =>
    intro t'' h'
    cases h' with
    | mk g1 g2 g3 g4 =>
      exact .mk (by omega) (fun i hi hi' => hRS _ _ _ (h2 i hi (by omega)) (g2 i (by omega) hi')) (by omega)
        (fun i hi hi' => ih i hi (by omega) (g4 i (by omega) hi'))

end Gomill.Sgf
