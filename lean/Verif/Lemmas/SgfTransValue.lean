import Verif.Lemmas.SgfTransText
/-
Converting a property's values between encodings doesn't change what they mean.
-/
namespace Gomill.Sgf

open Py

theorem mem_lstrip {c : Char} {v : Str} (h : c ∈ v) : isSpace c = true ∨ c ∈ lstrip v := by
  unfold lstrip
  induction v with
  | nil => simp at h
  | cons d v ih =>
    rw [List.dropWhile_cons]
    split
    · rename_i hd
      rcases List.mem_cons.1 h with rfl | h
      · exact Or.inl hd
      · exact ih h
    · exact Or.inr h

theorem mem_strip {c : Char} {v : Str} (h : c ∈ v) : isSpace c = true ∨ c ∈ strip v := by
  rcases mem_lstrip h with h | h
  · exact Or.inl h
  · have : c ∈ (lstrip v).reverse := List.mem_reverse.2 h
    rcases mem_lstrip this with h | h
    · exact Or.inl h
    · exact Or.inr (List.mem_reverse.2 h)

theorem isSpace_ascii {c : Char} (h : isSpace c = true) : c.toNat < 128 := by
  unfold isSpace at h
  simp only [Bool.or_eq_true, decide_eq_true_eq] at h
  rcases h with ((((h | h) | h) | h) | h) | h
  all_goals first | (rw [h]; decide) | omega

theorem isDigit_ascii {c : Char} (h : c.isDigit = true) : c.toNat < 128 := by
  unfold Char.isDigit at h
  simp only [Bool.and_eq_true, decide_eq_true_eq] at h
  have := h.2
  have h2 : c.val.toNat ≤ 57 := this
  show c.val.toNat < 128
  omega

theorem parseDigits_ascii {s : Str} {n : Nat} (h : parseDigits s = .ok n) : ∀ c ∈ s, c.toNat < 128 := by
  unfold parseDigits at h
  split at h
  · rename_i hs
    intro c hc
    exact isDigit_ascii (List.all_eq_true.1 hs.2 c hc)
  · cases h

theorem parseInt_ascii {s : Str} {i : Int} (h : parseInt s = .ok i) : ∀ c ∈ s, c.toNat < 128 := by
  intro c hc
  rcases mem_strip hc with hs | hs
  · exact isSpace_ascii hs
  · have hsig : ∀ (f : Int → Int) (r : Str), parseInt.signed f (parseDigits r) = .ok i → ∀ d ∈ r, d.toNat < 128 := by
      intro f r hr
      cases hp : parseDigits r with
      | error e => rw [hp] at hr; cases hr
      | ok n => exact parseDigits_ascii hp
    unfold parseInt at h
    split at h
    · rename_i r hr
      rw [hr] at hs
      rcases List.mem_cons.1 hs with rfl | hs
      · decide
      · rcases mem_lstrip hs with hs | hs
        · exact isSpace_ascii hs
        · exact hsig _ _ h c hs
    · rename_i r hr
      rw [hr] at hs
      rcases List.mem_cons.1 hs with rfl | hs
      · decide
      · rcases mem_lstrip hs with hs | hs
        · exact isSpace_ascii hs
        · exact hsig _ _ h c hs
    · exact hsig _ _ h c hs

theorem goPoint_ascii {s : Str} {size : Int} (hs : size ≤ 26) {m : Option Pt} (h : interpretGoPoint s size = .ok m) : ∀ c ∈ s, c.toNat < 128 := by
  unfold interpretGoPoint at h
  split at h
  · rename_i h0
    rcases h0 with rfl | ⟨rfl, _⟩
    · simp
    · decide
  · split at h
    · rename_i a b _
      simp only at h
      split at h
      · cases h
      · rename_i hh
        simp only [Decidable.not_not] at hh
        intro c hc
        rcases List.mem_cons.1 hc with rfl | hc
        · omega
        · rw [List.mem_singleton] at hc
          subst hc
          omega
    · cases h

theorem point_ascii {s : Str} {size : Int} (hs : size ≤ 26) {p : Pt} (h : interpretPoint s size = .ok p) : ∀ c ∈ s, c.toNat < 128 := by
  unfold interpretPoint at h
  cases hg : interpretGoPoint s size with
  | error e => rw [hg] at h; cases h
  | ok m => exact goPoint_ascii hs hg

section
variable {T : Str → Option Str} (hT : AsciiMap T)
include hT

theorem T_same {v v' : Str} (h : T v = some v') (ha : ∀ c ∈ v, c.toNat < 128) : v' = v := by
  rw [T_ascii hT ha] at h
  cases h
  rfl

theorem T_same' {v v' : Str} (h : T v = some v') (ha : ∀ c ∈ v', c.toNat < 128) : v = v' :=
  highEq_ascii (highEq_T hT _ v v' (Nat.le_refl _) h).symm ha

theorem T_partition {c : Char} (hc : c.toNat < 128) {v v' : Str} (h : T v = some v') :
    (∀ p q, partition c v = (p, some q) → ∃ p' q', T p = some p' ∧ T q = some q' ∧ partition c v' = (p', some q')) ∧
    (∀ p, partition c v = (p, none) → p = v ∧ partition c v' = (v', none)) := by
  have hsome : ∀ s p q, partition c s = (p, some q) → s = p ++ c :: q ∧ c ∉ p := by
    intro s
    induction s with
    | nil => intro p q h; simp [partition] at h
    | cons x s ih =>
      intro p q h
      rw [partition] at h
      split at h
      · rename_i hx
        subst hx
        simp only [Prod.mk.injEq, Option.some.injEq] at h
        obtain ⟨rfl, rfl⟩ := h
        exact ⟨rfl, by simp⟩
      · rename_i hx
        simp only [Prod.mk.injEq] at h
        obtain ⟨rfl, h2⟩ := h
        obtain ⟨e1, e2⟩ := ih (partition c s).1 q (by rw [← h2])
        refine ⟨by rw [List.cons_append, ← e1], ?_⟩
        simp only [List.mem_cons, not_or]
        exact ⟨fun h => hx h.symm, e2⟩
  have hmake : ∀ p q : Str, c ∉ p → partition c (p ++ c :: q) = (p, some q) := by
    intro p q
    induction p with
    | nil => intro _; simp [partition]
    | cons x p ih =>
      intro hp
      simp only [List.mem_cons, not_or] at hp
      rw [List.cons_append, partition, if_neg (fun h => hp.1 h.symm), ih hp.2]
  have hnone : ∀ s p, partition c s = (p, none) → p = s ∧ c ∉ s := by
    intro s
    induction s with
    | nil => intro p h; simp [partition] at h; exact ⟨h, by simp⟩
    | cons x s ih =>
      intro p h
      rw [partition] at h
      split at h
      · simp at h
      · rename_i hx
        simp only [Prod.mk.injEq] at h
        obtain ⟨rfl, h2⟩ := h
        obtain ⟨e1, e2⟩ := ih (partition c s).1 (by rw [← h2])
        refine ⟨by rw [e1], ?_⟩
        simp only [List.mem_cons, not_or]
        exact ⟨fun h => hx h.symm, e2⟩
  have hmem : ∀ a a' : Str, HighEq a a' → (c ∈ a ↔ c ∈ a') := by
    intro a a' hh
    induction hh with
    | nil => simp
    | ascii _ _ ih => simp [ih]
    | @run x x' s s' _ _ h3 h4 _ ih =>
      have n1 : c ∉ x := fun hm => by have := h3 c hm; omega
      have n2 : c ∉ x' := fun hm => by have := h4 c hm; omega
      simp [n1, n2, ih]
  constructor
  · intro p q hp
    obtain ⟨rfl, hcp⟩ := hsome v p q hp
    rw [hT.split p c q hc] at h
    obtain ⟨a, h1, h2⟩ := Option.bind_eq_some_iff.1 h
    obtain ⟨b, h3, rfl⟩ := Option.map_eq_some_iff.1 h2
    exact ⟨a, b, h1, h3, hmake a b (fun hm => hcp ((hmem p a (highEq_T hT _ p a (Nat.le_refl _) h1)).2 hm))⟩
  · intro p hp
    obtain ⟨rfl, hcp⟩ := hnone v p hp
    refine ⟨rfl, ?_⟩
    cases hv : partition c v' with
    | mk p' o =>
      cases o with
      | none => rw [(hnone v' p' hv).1]
      | some q' =>
        obtain ⟨e, _⟩ := hsome v' p' q' hv
        refine absurd ((hmem p v' (highEq_T hT _ p v' (Nat.le_refl _) h)).2 ?_) hcp
        rw [e]; simp

omit hT in
theorem splitCompose_some {v p q : Str} (h : splitCompose v = some (p, q)) : v = p ++ ':' :: q ∧ NoBare ':' p := by
  fun_induction splitCompose v generalizing p with
  | case1 => simp at h
  | case2 => simp at h
  | case3 c r ih =>
    obtain ⟨x, hx, he⟩ := Option.map_eq_some_iff.1 h
    simp only [Prod.mk.injEq] at he
    obtain ⟨rfl, rfl⟩ := he
    obtain ⟨e1, e2⟩ := ih hx
    exact ⟨by rw [e1]; rfl, .escaped e2⟩
  | case4 r =>
    simp only [Option.some.injEq, Prod.mk.injEq] at h
    obtain ⟨rfl, rfl⟩ := h
    exact ⟨rfl, .nil⟩
  | case5 c r h1 h2 h3 ih =>
    obtain ⟨x, hx, he⟩ := Option.map_eq_some_iff.1 h
    simp only [Prod.mk.injEq] at he
    obtain ⟨rfl, rfl⟩ := he
    obtain ⟨e1, e2⟩ := ih hx
    refine ⟨by rw [e1]; rfl, .plain ?_ ?_ e2⟩
    · rintro rfl
      cases r with
      | nil => exact h1 rfl rfl
      | cons d r => exact h2 d r rfl rfl
    · rintro rfl
      exact h3 rfl

omit hT in
theorem splitCompose_make {p q : Str} (h : NoBare ':' p) : splitCompose (p ++ ':' :: q) = some (p, q) := by
  induction h with
  | nil => rw [List.nil_append, splitCompose]
  | @plain c s h1 h2 _ ih =>
    rw [List.cons_append, splitCompose.eq_def]
    split
    · rename_i h; cases h
    · rename_i h; simp only [List.cons.injEq] at h; exact absurd h.1 h1
    · rename_i h; simp only [List.cons.injEq] at h; exact absurd h.1 h1
    · rename_i h; simp only [List.cons.injEq] at h; exact absurd h.1 h2
    · rename_i h
      simp only [List.cons.injEq] at h
      obtain ⟨rfl, rfl⟩ := h
      rw [ih]; rfl
  | @escaped c s _ ih => rw [List.cons_append, List.cons_append, splitCompose, ih]; rfl

theorem T_parseCompose {v v' : Str} (h : T v = some v') :
    ∃ p', T (parseCompose v).1 = some p' ∧ (parseCompose v').1 = p' ∧
      ((parseCompose v).2 = none ∧ (parseCompose v').2 = none ∨
        ∃ q q', (parseCompose v).2 = some q ∧ T q = some q' ∧ (parseCompose v').2 = some q') := by
  have hH := highEq_T hT _ v v' (Nat.le_refl _) h
  unfold parseCompose
  cases hs : splitCompose v with
  | none =>
    cases hs' : splitCompose v' with
    | none => exact ⟨v', h, rfl, Or.inl ⟨rfl, rfl⟩⟩
    | some pq =>
      obtain ⟨p', q'⟩ := pq
      obtain ⟨e, hb⟩ := splitCompose_some hs'
      obtain ⟨p, q, rfl, h1, h2⟩ := highEq_split hH (by decide) e
      have := splitCompose_make (q := q) ((noBare_highEq (by decide) h1.symm).1 hb)
      rw [this] at hs
      cases hs
  | some pq =>
    obtain ⟨p, q⟩ := pq
    obtain ⟨rfl, hb⟩ := splitCompose_some hs
    rw [hT.split p ':' q (by decide)] at h
    obtain ⟨a, h1, h2⟩ := Option.bind_eq_some_iff.1 h
    obtain ⟨b, h3, rfl⟩ := Option.map_eq_some_iff.1 h2
    rw [splitCompose_make (q := b) ((noBare_highEq (by decide) (highEq_T hT _ p a (Nat.le_refl _) h1)).1 hb)]
    exact ⟨a, h1, rfl, Or.inr ⟨q, b, rfl, h3, rfl⟩⟩

end

/-! ### the property types -/

variable {a b : Codec}

theorem forall2_mapM {α : Type} {f g : Str → Except Exc α} {R : Str → Str → Prop} (hfg : ∀ v v', R v v' → ∀ x, f v = .ok x → g v' = .ok x) :
    ∀ {vs vs' : List Str}, List.Forall₂ R vs vs' → ∀ {l : List α}, vs.mapM f = .ok l → vs'.mapM g = .ok l := by
  intro vs vs' h
  induction h with
  | nil => intro l h; simpa using h
  | @cons v v' vs vs' hv _ ih =>
    intro l h
    rw [List.mapM_cons] at h ⊢
    cases hf : f v with
    | error e => rw [hf] at h; cases h
    | ok x =>
      rw [hf] at h
      rw [hfg v v' hv x hf]
      simp only [bind, Except.bind] at h ⊢
      cases hm : vs.mapM f with
      | error e => rw [hm] at h; cases h
      | ok xs =>
        rw [hm] at h
        rw [ih hm]
        exact h

theorem point_T {T : Str → Option Str} (hT : AsciiMap T) {size : Int} (hs : size ≤ 26) {v v' : Str} (h : T v = some v') {p : Pt}
    (hp : interpretPoint v size = .ok p) : interpretPoint v' size = .ok p := by
  rw [T_same hT h (point_ascii hs hp)]
  exact hp

theorem pointList_T {T : Str → Option Str} (hT : AsciiMap T) {size : Int} (hs : size ≤ 26) {vs vs' : List Str}
    (h : List.Forall₂ (fun v v' => T v = some v') vs vs') : ∀ {acc l : List Pt}, pointListLoop size vs acc = .ok l →
    pointListLoop size vs' acc = .ok l := by
  induction h with
  | nil => intro acc l h; exact h
  | @cons v v' vs vs' hv _ ih =>
    intro acc l h
    obtain ⟨p1, p2⟩ := T_partition hT (c := ':') (by decide) hv
    rw [pointListLoop] at h ⊢
    cases hp : partition ':' v with
    | mk x o =>
      cases o with
      | none =>
        obtain ⟨rfl, e⟩ := p2 x hp
        rw [e]
        rw [hp] at h
        simp only [bind, Except.bind] at h ⊢
        cases hi : interpretPoint x size with
        | error e => rw [hi] at h; cases h
        | ok pt =>
          rw [hi] at h
          rw [point_T hT hs hv hi]
          exact ih h
      | some y =>
        obtain ⟨x', y', e1, e2, e3⟩ := p1 x y hp
        rw [e3]
        rw [hp] at h
        simp only [bind, Except.bind] at h ⊢
        cases hi : interpretPoint x size with
        | error e => rw [hi] at h; cases h
        | ok pt =>
          rw [hi] at h
          rw [point_T hT hs e1 hi]
          obtain ⟨top, left⟩ := pt
          simp only at h ⊢
          cases hj : interpretPoint y size with
          | error e => rw [hj] at h; cases h
          | ok pt2 =>
            rw [hj] at h
            rw [point_T hT hs e2 hj]
            simp only at h ⊢
            split
            · rename_i hb; rw [if_pos hb] at h; exact h
            · rename_i hb
              rw [if_neg hb] at h
              exact ih h

theorem double_T {T : Str → Option Str} (hT : AsciiMap T) {v v' : Str} (h : T v = some v') : interpretDouble v' = interpretDouble v := by
  have hstrip : ∀ w : Str, strip w = ['2'] → ∀ c ∈ w, c.toNat < 128 := by
    intro w hw c hc
    rcases mem_strip hc with hs | hs
    · exact isSpace_ascii hs
    · rw [hw, List.mem_singleton] at hs
      subst hs
      decide
  unfold interpretDouble
  by_cases h1 : strip v = ['2']
  · rw [T_same hT h (hstrip v h1)]
  · by_cases h2 : strip v' = ['2']
    · rw [T_same' hT h (hstrip v' h2)]
    · rw [if_neg h1, if_neg h2]

theorem colour_ascii {s : Str} {c : Colour} (h : interpretColour s = .ok c) : ∀ d ∈ s, d.toNat < 128 := by
  have key : ∀ e : Char, e.toNat < 128 → lower s = [e] → ∀ d ∈ s, d.toNat < 128 := by
    intro e he hl d hd
    have hm : Char.toLower d ∈ lower s := by unfold lower; exact List.mem_map_of_mem hd
    rw [hl, List.mem_singleton] at hm
    by_contra hge
    have : d.toLower = d := by
      unfold Char.toLower
      rw [dif_neg]
      intro hu
      have h2 : d.val.toNat ≤ 90 := hu.2
      have : d.toNat = d.val.toNat := rfl
      omega
    rw [this] at hm
    rw [hm] at hge
    exact hge he
  unfold interpretColour at h
  split at h
  · rename_i hl; exact key 'b' (by decide) hl
  · split at h
    · rename_i hl; exact key 'w' (by decide) hl
    · cases h

theorem singleValue_T {R : Str → Str → Prop} {vs vs' : List Raw} (h : List.Forall₂ R vs vs') {v : Raw} (hv : singleValue vs = .ok v) :
    ∃ v', R v v' ∧ singleValue vs' = .ok v' := by
  match vs, h, hv with
  | [], h, hv => cases hv
  | [w], h, hv =>
    cases hv
    cases h with
    | @cons _ v' _ _ h1 h2 => cases h2; exact ⟨v', h1, rfl⟩
  | _ :: _ :: _, h, hv => cases hv

theorem listValues_T {T : Str → Option Str} (hT : AsciiMap T) {vs vs' : List Raw} (h : List.Forall₂ (fun v v' => T v = some v') vs vs')
    {l : List Raw} (hv : listValues vs = .ok l) : ∃ l', List.Forall₂ (fun v v' => T v = some v') l l' ∧ listValues vs' = .ok l' := by
  have hnil : ∀ v v' : Str, T v = some v' → (v = [] ↔ v' = []) := by
    intro v v' h
    constructor
    · rintro rfl; rw [hT.nil] at h; cases h; rfl
    · rintro rfl; exact hT.nonempty v h
  cases h with
  | nil => cases hv
  | @cons v v' vs vs' h1 h2 =>
    simp only [listValues] at hv ⊢
    cases h2 with
    | nil =>
      by_cases h0 : v = []
      · have := (hnil v v' h1).1 h0
        subst h0; subst this
        cases hv
        exact ⟨[], .nil, by simp⟩
      · have : v' ≠ [] := fun h => h0 ((hnil v v' h1).2 h)
        rw [if_neg (by simpa using h0)] at hv
        cases hv
        exact ⟨[v'], .cons h1 .nil, by rw [if_neg (by simpa using this)]⟩
    | cons h3 h4 =>
      rw [if_neg (by simp)] at hv
      cases hv
      exact ⟨_, .cons h1 (.cons h3 h4), by rw [if_neg (by simp)]⟩

/-- Reading converted values of any property type gives the same result. -/
theorem interpretAs_T (ha : Transcodable a) (hb : Transcodable b) {P P' : Presenter} (hPa : P.codec = a) (hPb : P'.codec = b)
    (hs : P.size = P'.size) (h26 : P.size ≤ 26) (hf : P.floats = P'.floats)
    (hfa : ∀ s q, P.floats.read s = some (.fin q) → ∀ c ∈ s, c.toNat < 128)
    {vs vs' : List Raw} (h : List.Forall₂ (fun v v' => transcode a b v = some v') vs vs') (t : PType) {x : PVal}
    (hx : P.interpretAs t vs = .ok x) : P'.interpretAs t vs' = .ok x := by
  have hT := asciiMap_transcode ha hb
  -- types with one value
  have one : ∀ {α : Type} (f g : Raw → Except Exc α) (k : α → PVal),
      (∀ v v', transcode a b v = some v' → ∀ y, f v = .ok y → g v' = .ok y) →
      (do return k (← f (← singleValue vs)) : Except Exc PVal) = .ok x → (do return k (← g (← singleValue vs')) : Except Exc PVal) = .ok x := by
    intro α f g k hfg h1
    cases hv : singleValue vs with
    | error e => rw [hv] at h1; cases h1
    | ok v =>
      obtain ⟨v', e1, e2⟩ := singleValue_T h hv
      rw [hv] at h1
      rw [e2]
      simp only [bind, Except.bind] at h1 ⊢
      cases hfv : f v with
      | error e => rw [hfv] at h1; cases h1
      | ok y =>
        rw [hfv] at h1
        rw [hfg v v' e1 y hfv]
        exact h1
  -- list types
  have many : ∀ {α : Type} (f g : List Raw → Except Exc α) (k : α → PVal),
      (∀ l l', List.Forall₂ (fun v v' => transcode a b v = some v') l l' → ∀ y, f l = .ok y → g l' = .ok y) →
      (do return k (← f (← listValues vs)) : Except Exc PVal) = .ok x → (do return k (← g (← listValues vs')) : Except Exc PVal) = .ok x := by
    intro α f g k hfg h1
    cases hv : listValues vs with
    | error e => rw [hv] at h1; cases h1
    | ok l =>
      obtain ⟨l', e1, e2⟩ := listValues_T hT h hv
      rw [hv] at h1
      rw [e2]
      simp only [bind, Except.bind] at h1 ⊢
      cases hfv : f l with
      | error e => rw [hfv] at h1; cases h1
      | ok y =>
        rw [hfv] at h1
        rw [hfg l l' e1 y hfv]
        exact h1
  unfold Presenter.interpretAs at hx ⊢
  cases t with
  | none =>
    simp only at hx ⊢
    cases hv : singleValue vs with
    | error e => rw [hv] at hx; cases hx
    | ok v =>
      obtain ⟨v', _, e2⟩ := singleValue_T h hv
      rw [hv] at hx
      rw [e2]
      exact hx
  | number =>
    refine one _ _ _ (fun v v' hv y hy => ?_) hx
    rw [T_same hT hv (parseInt_ascii hy)]; exact hy
  | real =>
    refine one _ _ _ (fun v v' hv y hy => ?_) hx
    rw [← hf]
    have : ∃ q, P.floats.read v = some (.fin q) := by
      unfold interpretReal at hy
      split at hy
      · cases hy
      · cases hy
      · cases hy
      · rename_i q hq; exact ⟨q, hq⟩
    obtain ⟨q, hq⟩ := this
    rw [T_same hT hv (hfa v q hq)]; exact hy
  | double =>
    have := one (fun v => .ok (interpretDouble v)) (fun v => .ok (interpretDouble v)) PVal.num (fun v v' hv y hy => by
      rw [double_T hT hv]; exact hy)
    simp only [bind, Except.bind] at this hx ⊢
    exact this hx
  | colour =>
    refine one _ _ _ (fun v v' hv y hy => ?_) hx
    rw [T_same hT hv (colour_ascii hy)]; exact hy
  | simpletext =>
    refine one _ _ _ (fun v v' hv y hy => ?_) hx
    rw [hPb, (interpret_trans ha hb hv).1, ← hPa]; exact hy
  | text =>
    refine one _ _ _ (fun v v' hv y hy => ?_) hx
    rw [hPb, (interpret_trans ha hb hv).2, ← hPa]; exact hy
  | point =>
    refine one (fun v => interpretPoint v P.size) (fun v => interpretPoint v P'.size) _ (fun v v' hv y hy => ?_) hx
    rw [← hs]
    exact point_T hT h26 hv hy
  | move =>
    refine one (fun v => interpretGoPoint v P.size) (fun v => interpretGoPoint v P'.size) _ (fun v v' hv y hy => ?_) hx
    rw [← hs, T_same hT hv (goPoint_ascii h26 hy)]; exact hy
  | pointList e =>
    refine many (fun v => interpretPointList v P.size) (fun v => interpretPointList v P'.size) _ (fun l l' hl y hy => ?_) hx
    rw [← hs]
    exact pointList_T hT h26 hl hy
  | AP =>
    refine one _ _ _ (fun v v' hv y hy => ?_) hx
    obtain ⟨p', q1, q2, q3⟩ := T_parseCompose hT hv
    unfold interpretAP at hy ⊢
    simp only at hy ⊢
    rw [q2, hPb, (interpret_trans ha hb q1).1, ← hPa]
    rcases q3 with ⟨r1, r2⟩ | ⟨r, r', r1, r2, r3⟩
    · rw [r1] at hy
      rw [r2]
      have h0 : interpretSimpletext b [] = interpretSimpletext P.codec [] := by
        rw [hPa]; exact (interpret_trans ha hb hT.nil).1
      simp only at hy ⊢
      rw [h0]
      exact hy
    · rw [r1] at hy
      rw [r3]
      simp only at hy ⊢
      rw [(interpret_trans ha hb r2).1, ← hPa]
      exact hy
  | ARLN =>
    refine many (fun v => interpretARLN v P.size) (fun v => interpretARLN v P'.size) _ (fun l l' hl y hy => ?_) hx
    rw [← hs]
    unfold interpretARLN at hy ⊢
    refine forall2_mapM ?_ hl hy
    intro v v' hv z hz
    obtain ⟨p', q1, q2, q3⟩ := T_parseCompose hT hv
    simp only [bind, Except.bind] at hz ⊢
    rw [q2]
    cases hp : interpretPoint (parseCompose v).1 P.size with
    | error e => rw [hp] at hz; cases hz
    | ok p1 =>
      rw [hp] at hz
      rw [point_T hT h26 q1 hp]
      rcases q3 with ⟨r1, r2⟩ | ⟨r, r', r1, r2, r3⟩
      · rw [r1] at hz; cases hz
      · rw [r1] at hz
        rw [r3]
        simp only [needStr] at hz ⊢
        cases hp2 : interpretPoint r P.size with
        | error e => rw [hp2] at hz; cases hz
        | ok p2 =>
          rw [hp2] at hz
          rw [point_T hT h26 r2 hp2]
          exact hz
  | FG =>
    refine one _ _ _ (fun v v' hv y hy => ?_) hx
    obtain ⟨p', q1, q2, q3⟩ := T_parseCompose hT hv
    unfold interpretFG at hy ⊢
    by_cases h0 : v = []
    · subst h0
      rw [hT.nil] at hv
      cases hv
      rw [if_pos rfl] at hy ⊢
      exact hy
    · rw [if_neg h0] at hy
      rw [if_neg (by rintro rfl; exact h0 (hT.nonempty v hv))]
      simp only [bind, Except.bind] at hy ⊢
      rw [q2]
      cases hp : parseInt (parseCompose v).1 with
      | error e => rw [hp] at hy; cases hy
      | ok n =>
        rw [hp] at hy
        rw [T_same hT q1 (parseInt_ascii hp), hp]
        rcases q3 with ⟨r1, r2⟩ | ⟨r, r', r1, r2, r3⟩
        · rw [r1] at hy; cases hy
        · rw [r1] at hy
          rw [r3]
          simp only [needStr] at hy ⊢
          rw [hPb, (interpret_trans ha hb r2).1, ← hPa]
          exact hy
  | LB =>
    refine many (fun v => interpretLB P.codec v P.size) (fun v => interpretLB P'.codec v P'.size) _ (fun l l' hl y hy => ?_) hx
    rw [← hs]
    unfold interpretLB at hy ⊢
    refine forall2_mapM ?_ hl hy
    intro v v' hv z hz
    obtain ⟨p', q1, q2, q3⟩ := T_parseCompose hT hv
    simp only [bind, Except.bind] at hz ⊢
    rw [q2]
    cases hp : interpretPoint (parseCompose v).1 P.size with
    | error e => rw [hp] at hz; cases hz
    | ok p1 =>
      rw [hp] at hz
      rw [point_T hT h26 q1 hp]
      rcases q3 with ⟨r1, r2⟩ | ⟨r, r', r1, r2, r3⟩
      · rw [r1] at hz; cases hz
      · rw [r1] at hz
        rw [r3]
        simp only [needStr] at hz ⊢
        rw [hPb, (interpret_trans ha hb r2).1, ← hPa]
        exact hz

end Gomill.Sgf
