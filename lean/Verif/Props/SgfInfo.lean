import Verif.Model.SgfInfo
import Verif.Spec.SgfInfo
import Verif.Lemmas.Text
import Verif.Props.SgfRunner
/-
C50 and C52 (the table of types, loading), C67: the game information accessors.
-/
namespace Gomill.Sgf

open Py

variable {E : Encodings} {F : Floats}

/-! ### C50: the table -/

theorem types_sound : ∀ p ∈ standardTypes, ∃ c ∈ ff4, c.1 = p.2 ∧ p.1 ∈ c.2 := by decide +kernel

theorem types_complete : ∀ c ∈ ff4, ∀ s ∈ c.2, (List.find? (fun p : Str × PType => decide (p.1 = s.toList)) (standardTypes.map (fun p => (p.1.toList, p.2)))).map (·.2) = some c.1 := by
  decide +kernel

/-- C50: the standard properties have the types that FF[4] gives them, and any other property is a text. -/
theorem C50_types (size : Int) (C : Codec) (F : Floats) (ident : Str) (t : PType) :
    (Presenter.new size C F).effectiveType ident = .ok t ↔ IsStandard ident t ∨ ((∀ t', ¬ IsStandard ident t') ∧ t = .text) := by
  have hc : ∀ t', IsStandard ident t' → (Presenter.new size C F).lookupType ident = some t' := by
    rintro t' ⟨c, h1, rfl, s, h2, rfl⟩
    exact types_complete c h1 s h2
  have hs : ∀ t', (Presenter.new size C F).lookupType ident = some t' → IsStandard ident t' := by
    intro t' h
    unfold Presenter.lookupType at h
    cases hf : List.find? (fun p : Str × PType => decide (p.1 = ident)) (Presenter.new size C F).types with
    | none => rw [hf] at h; cases h
    | some p =>
      rw [hf] at h
      cases h
      have h1 := List.mem_of_find?_eq_some hf
      have h2 := List.find?_some hf
      obtain ⟨q, hq, rfl⟩ := List.mem_map.1 h1
      obtain ⟨c, c1, c2, c3⟩ := types_sound q hq
      exact ⟨c, c1, c2, q.1, c3, (of_decide_eq_true h2).symm⟩
  cases hl : (Presenter.new size C F).lookupType ident with
  | some t' =>
    rw [effectiveType_of hl]
    constructor
    · intro h; cases h; exact .inl (hs _ hl)
    · rintro (h | h)
      · have := hc _ h
        rw [hl] at this
        cases this
        rfl
      · exact absurd (hs _ hl) (h.1 t')
  | none =>
    have : (Presenter.new size C F).effectiveType ident = .ok .text := by
      unfold Presenter.effectiveType; rw [hl]; rfl
    rw [this]
    have hn : ∀ t', ¬ IsStandard ident t' := by
      intro t' h
      have := hc _ h
      rw [hl] at this
      cases this
    constructor
    · intro h; cases h; exact .inr ⟨hn, rfl⟩
    · rintro (h | h)
      · exact absurd h (hn t)
      · rw [h.2]

/-! ### C52: loading -/

/-- Building the tree doesn't look at the first element of the first sequence. -/
theorem makeTreeLoop_head {α : Type} (p q : α) (s : List α) (cs : List (Coarse α)) :
    ∀ (fuel : Nat) (h : Heap α) (node i : Nat) (st : List (Nat × Coarse α × Nat)),
      makeTreeLoop fuel h ((node, .mk (p :: s) cs, i) :: st) = makeTreeLoop fuel h ((node, .mk (q :: s) cs, i) :: st)
  | 0, h, node, i, st => by rw [makeTreeLoop.eq_2 _ _ (by simp), makeTreeLoop.eq_2 _ _ (by simp)]
  | fuel+1, h, node, i, st => by
    rw [makeTreeLoop, makeTreeLoop]
    simp only [List.length_cons, List.getElem?_cons_succ]
    split
    · split
      · rfl
      · exact makeTreeLoop_head p q s cs fuel _ _ _ _
    · rfl

theorem sourceEncoding_iff {root : PropMap} {override : Option Str} {e : Str} :
    loadEncoding root override = .ok e ↔ SourceEncoding root override e := by
  unfold loadEncoding SourceEncoding
  cases override with
  | some o =>
    simp only [Except.ok.injEq]
    exact eq_comm
  | none =>
    simp only
    rw [find_eq_lookup]
    cases lookup root ['C', 'A'] with
    | none =>
      simp only [Except.ok.injEq]
      exact eq_comm
    | some vs =>
      cases vs with
      | nil => simp [firstValue]
      | cons v vs => simp [firstValue]

theorem loadRoot_ok (hN : NamesOK E) {P : Presenter} {e n : Str} (hn : E.normalise e = some n) (root : PropMap) (override : Option Str) :
    (loadRoot P n root override).2 = .ok () ∧ RootAfterLoad root (loadRoot P n root override).1 override n := by
  cases override with
  | none => exact ⟨rfl, fun k => by simp [loadRoot]⟩
  | some o =>
    have hv : isValidValue n = true := (isValidValue_iff n).2 (by
      exact validValue_plain (fun c hc => ⟨((hN.chars e n hn).2 c hc).1, ((hN.chars e n hn).2 c hc).2.1⟩))
    have : loadRoot P n root (some o) = (root.assign ['C', 'A'] [n], .ok ()) := by
      unfold loadRoot setRaw setRawListUnchecked
      simp only [hv]
      rw [if_neg (by decide), if_neg (by simp), if_neg (by simp)]
    rw [this]
    refine ⟨rfl, fun k => ?_⟩
    rw [lookup_assign]
    by_cases hk : k = ['C', 'A'] <;> simp [hk]

/-- C52: a tree from the parser can be loaded exactly if the root node gives a board size from 1 to 26, and the encoding
it gives (or the one which the caller gives instead) is known.  The new game has that size and encoding, and the nodes of
the tree with their properties; only the root's CA property is replaced if the caller gave the encoding. No other game is
affected. -/
theorem C52_load (hN : NamesOK E) {t : CTree} {root : PropMap} {s : List PropMap} {ch : List CTree} (ht : t = .mk (root :: s) ch)
    (hv : ValidTree t) (override : Option Str) (M : Lib) :
    ((∃ M', M.load E F t override = .ok M') ↔
      ∃ size e n, EffectiveSize root size ∧ 1 ≤ size ∧ size ≤ 26 ∧ SourceEncoding root override e ∧ E.normalise e = some n) ∧
    ∀ M', M.load E F t override = .ok M' → ∃ g size e n root' u, M'.games = M.games ++ [g] ∧
      EffectiveSize root size ∧ SourceEncoding root override e ∧ E.normalise e = some n ∧
      g.encoding = n ∧ g.presenter = Presenter.new size (E.codec n) F ∧
      RootAfterLoad root root' override n ∧ (CTree.mk (root' :: s) ch).coarse.nodes = [u] ∧ HasTree M' M.games.length g u ∧
      ∀ j, j < M.heap.length → M'.heap[j]? = M.heap[j]? := by
  subst ht
  have hne := nonempty_coarse hv
  have key : ∀ {size : Int} {e n : Str}, EffectiveSize root size → 1 ≤ size → size ≤ 26 → loadEncoding root override = .ok e → E.normalise e = some n →
      ∃ M' g root' u, M.load E F (.mk (root :: s) ch) override = .ok M' ∧ M'.games = M.games ++ [g] ∧ g.encoding = n ∧
        g.presenter = Presenter.new size (E.codec n) F ∧ RootAfterLoad root root' override n ∧ (CTree.mk (root' :: s) ch).coarse.nodes = [u] ∧
        HasTree M' M.games.length g u ∧ ∀ j, j < M.heap.length → M'.heap[j]? = M.heap[j]? := by
    intro size e n h1 h2 h3 h4 h5
    obtain ⟨r1, r2⟩ := loadRoot_ok (P := Presenter.new size (E.codec n) F) hN h5 root override
    generalize hu : (loadRoot (Presenter.new size (E.codec n) F) n root override).1 = root' at r2
    have hne' : (CTree.mk (root' :: s) ch).coarse.Nonempty := by
      rw [CTree.coarse] at hne ⊢
      cases hne with | mk h => exact .mk h
    obtain ⟨h', u, ids, e1, e2, e3⟩ := makeTree_spec (c := (CTree.mk (root' :: s) ch).coarse) rfl hne'
      (h := M.heap.newRoot M.games.length root') (root := M.heap.length) (o := M.games.length) ⟨newRoot_get _ _ _⟩
    have e1' : makeTree (CTree.mk (root :: s) ch).coarse (M.heap.newRoot M.games.length root') M.heap.length = .ok h' := by
      rw [← e1, CTree.coarse, CTree.coarse]
      unfold makeTree
      rw [Coarse.size, Coarse.size]
      simp only [List.length_cons]
      exact makeTreeLoop_head _ _ _ _ _ _ _ _ _
    refine ⟨⟨h', M.games ++ [⟨Presenter.new size (E.codec n) F, n, M.heap.length⟩]⟩, ⟨Presenter.new size (E.codec n) F, n, M.heap.length⟩, root', u,
      ?_, rfl, rfl, rfl, r2, e2, ⟨ids, e3.rep, e3.nodup⟩, ?_⟩
    · have hp : makePresenter E F size e = .ok (Presenter.new size (E.codec n) F, n) := by
        unfold makePresenter
        rw [if_neg (by omega), h5]
      unfold Lib.load
      simp only [CTree.sequence, bind, Except.bind, loadSize_iff.2 h1, h4, hp, r1, hu, e1']
      rfl
    · intro j hj
      have := e3.frame j (by unfold Heap.newRoot; simp; omega) (by omega)
      rw [this]
      unfold Heap.newRoot
      rw [List.getElem?_append_left hj]
  refine ⟨⟨?_, ?_⟩, ?_⟩
  · rintro ⟨M', h⟩
    obtain ⟨root1, s1, ch1, size, e, P, n, h', a1, a2, a3, a4, a5, a6, a7, _⟩ := load_ok h
    cases a1
    exact ⟨size, e, n, a2, a3, a4, sourceEncoding_iff.1 a6, a7⟩
  · rintro ⟨size, e, n, h1, h2, h3, h4, h5⟩
    obtain ⟨M', _, _, _, h, _⟩ := key h1 h2 h3 (sourceEncoding_iff.2 h4) h5
    exact ⟨M', h⟩
  · intro M' h
    obtain ⟨root1, s1, ch1, size, e, P, n, h', a1, a2, a3, a4, a5, a6, a7, _⟩ := load_ok h
    cases a1
    obtain ⟨M'', g, root', u, b1, b2, b3, b4, b5, b6, b7, b8⟩ := key a2 a3 a4 a6 a7
    rw [h] at b1
    cases b1
    exact ⟨g, size, e, n, root', u, b2, a2, sourceEncoding_iff.1 a6, a7, b3, b4, b5, b6, b7, b8⟩

/-! ### C67: game information -/

theorem nodeGet_simpletext {P : Presenter} {m : PropMap} {ident : Str} (ht : P.effectiveType ident = .ok .simpletext) {raw u s : Str}
    (hl : lookup m ident = some [raw]) (hm : Means true raw u) (hd : P.codec.dec u = some s) : nodeGet P m ident = .ok (.str s) := by
  unfold nodeGet PropMap.item
  rw [find_eq_lookup, hl]
  have hv : simpletextValue raw = u := (C20_simpletext_value _ _).2 hm
  simp only [bind, Except.bind, Presenter.interpret, ht, Presenter.interpretAs, singleValue, interpretSimpletext, hv, hd, orValueError, pure, Except.pure]

theorem nameIdent_eq {c : Colour} {ident : Str} (h : NameProperty c ident) (P : Presenter) (m : PropMap) :
    getPlayerName P m c = match nodeGet P m ident with
      | .error .keyError => .ok none
      | .error e => .error e
      | .ok v => .ok (some v) := by
  cases h <;> rfl

/-- C67: the name of a player is the value of PB for black and PW for white, and None if the property is absent; a name
which is set is returned, with whitespace converted, and doesn't affect the other player's name. -/
theorem C67_player_name (P : Presenter) (hs : 1 ≤ P.size) (hs' : P.size ≤ 25) (hC : AsciiCompatible P.codec)
    (isFloat : Rat → Prop) (hF : FloatsOK P.floats isFloat) {c : Colour} {ident : Str} (hi : NameProperty c ident)
    (ht : P.effectiveType ident = .ok .simpletext) (m : PropMap) :
    (lookup m ident = none → getPlayerName P m c = .ok none) ∧
    (∀ raw u s, lookup m ident = some [raw] → Means true raw u → P.codec.dec u = some s → getPlayerName P m c = .ok (some (.str s))) ∧
    (∀ name, utf8Valid name = true → Encodable P name → ∃ name', Normalised true name name' ∧
      getPlayerName P (nodeSet P m ident (.str name)).1 c = .ok (some (.str name')) ∧
      ∀ c', c' ≠ c → getPlayerName P (nodeSet P m ident (.str name)).1 c' = getPlayerName P m c') := by
  refine ⟨?_, ?_, ?_⟩
  · intro h
    rw [nameIdent_eq hi, nodeGet_absent h]
  · intro raw u s h1 h2 h3
    rw [nameIdent_eq hi, nodeGet_simpletext ht h1 h2 h3]
  · intro name hu he
    have hok : (nodeSet P m ident (.str name)).2 = .ok () := by
      refine (C50_set_iff P hs hs' m ident (.str name)).1.2 ⟨?_, .simpletext, ht, he, ?_⟩
      · cases hi <;> exact ⟨by decide, by decide, by decide⟩
      · intro h; cases hi <;> cases h
    obtain ⟨⟨v', h1, h2⟩, h3⟩ := C50_set_get P hs hs' hC isFloat hF m ident (.str name) hu .simpletext ht hok
    cases v' <;> simp only [Reads] at h2
    rename_i name'
    refine ⟨name', h2, by rw [nameIdent_eq hi, h1], ?_⟩
    intro c' hc'
    have ho : ∃ k, k ≠ ident ∧ NameProperty c' k := by
      cases hi <;> cases c'
      · exact absurd rfl hc'
      · exact ⟨['P', 'W'], by decide, .white⟩
      · exact ⟨['P', 'B'], by decide, .black⟩
      · exact absurd rfl hc'
    obtain ⟨k, k1, k2⟩ := ho
    rw [nameIdent_eq k2, nameIdent_eq k2]
    unfold nodeGet PropMap.item
    rw [find_eq_lookup, find_eq_lookup, h3 k k1]

theorem toLower_iff (c d : Char) (hd : d = 'b' ∨ d = 'w') : c.toLower = d ↔ c = d ∨ c = d.toUpper := by
  have hb : Char.toUpper 'b' = 'B' := by decide
  have hw : Char.toUpper 'w' = 'W' := by decide
  have key : ∀ n : Nat, (98 ≤ n ∧ n ≤ 122) → (c.toLower.toNat = n ↔ c.toNat = n ∨ c.toNat = n - 32) := by
    intro n hn
    unfold Char.toLower
    split
    · rename_i h
      have h1 : 65 ≤ c.val.toNat := h.1
      have h2 : c.val.toNat ≤ 90 := h.2
      have e : (c.val + 32).toNat = c.val.toNat + 32 := by
        rw [UInt32.toNat_add, show (32 : UInt32).toNat = 32 from rfl]; omega
      show (c.val + 32).toNat = n ↔ c.val.toNat = n ∨ c.val.toNat = n - 32
      omega
    · rename_i h
      have h : ¬ (65 ≤ c.val.toNat ∧ c.val.toNat ≤ 90) := h
      show c.val.toNat = n ↔ c.val.toNat = n ∨ c.val.toNat = n - 32
      omega
  have ext : ∀ a b : Char, a = b ↔ a.toNat = b.toNat := fun a b => ⟨fun h => by rw [h], fun h => Char.ext (UInt32.toNat_inj.1 h)⟩
  rcases hd with rfl | rfl
  · rw [hb, ext, ext, ext]
    exact key 98 (by omega)
  · rw [hw, ext, ext, ext]
    exact key 119 (by omega)

theorem getWinner_str {P : Presenter} {m : PropMap} {s : Str} (h : nodeGet P m ['R', 'E'] = .ok (.str s)) :
    getWinner P m = .ok (winnerOf s) := by
  unfold getWinner
  rw [h]
  cases s with
  | nil => rfl
  | cons c r =>
    have h1 : lower [c] = ['b'] ↔ c = 'b' ∨ c = 'B' := by
      simp only [lower, List.map_cons, List.map_nil, List.cons.injEq, and_true]
      exact toLower_iff c 'b' (.inl rfl)
    have h2 : lower [c] = ['w'] ↔ c = 'w' ∨ c = 'W' := by
      simp only [lower, List.map_cons, List.map_nil, List.cons.injEq, and_true]
      exact toLower_iff c 'w' (.inr rfl)
    simp only [h1, h2, winnerOf, or_comm]
    split
    · rfl
    · split <;> rfl

theorem winnerOf_normalised {s s' : Str} (h : Normalised true s s') : winnerOf s' = winnerOf s := by
  cases h with
  | nil => rfl
  | @lineBreak b s t hb _ => cases hb <;> rfl
  | @char c s t h1 h2 _ =>
    by_cases hs : spaceFor c = c
    · rw [hs]; rfl
    · have hc : c = '\t' ∨ c = Char.ofNat 11 ∨ c = Char.ofNat 12 := by
        by_contra hn
        exact hs (by unfold spaceFor; rw [if_neg]; simpa using hn)
      rcases hc with rfl | rfl | rfl <;> rfl

/-- C67: the winner is the one named by the first letter of the RE property, in upper or lower case; None if there is no
RE property, or it names neither. -/
theorem C67_winner (P : Presenter) (hs : 1 ≤ P.size) (hs' : P.size ≤ 25) (hC : AsciiCompatible P.codec)
    (isFloat : Rat → Prop) (hF : FloatsOK P.floats isFloat) (ht : P.effectiveType ['R', 'E'] = .ok .simpletext) (m : PropMap) :
    (lookup m ['R', 'E'] = none → getWinner P m = .ok none) ∧
    (∀ raw u s, lookup m ['R', 'E'] = some [raw] → Means true raw u → P.codec.dec u = some s → getWinner P m = .ok (winnerOf s)) ∧
    (∀ result, utf8Valid result = true → Encodable P result →
      getWinner P (nodeSet P m ['R', 'E'] (.str result)).1 = .ok (winnerOf result)) := by
  refine ⟨?_, ?_, ?_⟩
  · intro h
    unfold getWinner
    rw [nodeGet_absent h]
  · intro raw u s h1 h2 h3
    exact getWinner_str (nodeGet_simpletext ht h1 h2 h3)
  · intro result hu he
    have hok : (nodeSet P m ['R', 'E'] (.str result)).2 = .ok () :=
      (C50_set_iff P hs hs' m _ (.str result)).1.2 ⟨⟨by decide, by decide, by decide⟩, .simpletext, ht, he, by intro h; cases h⟩
    obtain ⟨⟨v', h1, h2⟩, h3⟩ := C50_set_get P hs hs' hC isFloat hF m _ (.str result) hu .simpletext ht hok
    cases v' <;> simp only [Reads] at h2
    rw [getWinner_str h1, winnerOf_normalised h2]

theorem nodeGet_single {P : Presenter} {m : PropMap} {ident : Str} {t : PType} (ht : P.effectiveType ident = .ok t) {vs : List Raw}
    (hl : lookup m ident = some vs) : nodeGet P m ident = P.interpretAs t vs := by
  unfold nodeGet PropMap.item
  rw [find_eq_lookup, hl]
  simp only [bind, Except.bind, Presenter.interpret, ht]

/-- C67: the komi is the value of KM, and 0 if there is none; ValueError if it isn't one finite number. -/
theorem C67_komi (P : Presenter) (hs : 1 ≤ P.size) (hs' : P.size ≤ 25) (hC : AsciiCompatible P.codec)
    (isFloat : Rat → Prop) (hF : FloatsOK P.floats isFloat) (ht : P.effectiveType ['K', 'M'] = .ok .real) (m : PropMap) :
    (lookup m ['K', 'M'] = none → getKomi P m = .ok (.real (.fin 0))) ∧
    (∀ vs, lookup m ['K', 'M'] = some vs → ∀ q, getKomi P m = .ok (.real (.fin q)) ↔ ∃ raw, vs = [raw] ∧ P.floats.read raw = some (.fin q)) ∧
    (∀ vs, lookup m ['K', 'M'] = some vs → (¬ ∃ raw q, vs = [raw] ∧ P.floats.read raw = some (.fin q)) → getKomi P m = .error .valueError) ∧
    (∀ q, isFloat q → getKomi P (nodeSet P m ['K', 'M'] (.real (.fin q))).1 =
      .ok (.real (.fin (if -1/10000 < q ∧ q < 1/10000 then 0 else q)))) := by
  have hget : ∀ vs, lookup m ['K', 'M'] = some vs →
      (∃ raw q, vs = [raw] ∧ P.floats.read raw = some (.fin q) ∧ getKomi P m = .ok (.real (.fin q))) ∨
      ((¬ ∃ raw q, vs = [raw] ∧ P.floats.read raw = some (.fin q)) ∧ getKomi P m = .error .valueError) := by
    intro vs hv
    unfold getKomi
    rw [nodeGet_single ht hv]
    unfold Presenter.interpretAs singleValue
    match vs with
    | [] => exact .inr ⟨(by rintro ⟨_, _, h, _⟩; cases h), rfl⟩
    | [v] =>
      simp only [bind, Except.bind, interpretReal]
      cases hr : P.floats.read v with
      | none => exact .inr ⟨(by rintro ⟨_, _, h, h'⟩; cases h; rw [hr] at h'; cases h'), rfl⟩
      | some f =>
        cases f with
        | fin q => exact .inl ⟨v, q, rfl, hr, rfl⟩
        | inf b => exact .inr ⟨(by rintro ⟨_, _, h, h'⟩; cases h; rw [hr] at h'; cases h'), rfl⟩
        | nan => exact .inr ⟨(by rintro ⟨_, _, h, h'⟩; cases h; rw [hr] at h'; cases h'), rfl⟩
    | _ :: _ :: _ => exact .inr ⟨(by rintro ⟨_, _, h, _⟩; cases h), rfl⟩
  refine ⟨?_, ?_, ?_, ?_⟩
  · intro h
    unfold getKomi
    rw [nodeGet_absent h]
  · intro vs hv q
    rcases hget vs hv with ⟨raw, q', h1, h2, h3⟩ | ⟨h1, h2⟩
    · rw [h3]
      constructor
      · intro h; cases h; exact ⟨raw, h1, h2⟩
      · rintro ⟨raw', h4, h5⟩
        rw [h1] at h4
        cases h4
        rw [h2] at h5
        cases h5
        rfl
    · rw [h2]
      constructor
      · intro h; cases h
      · rintro ⟨raw, h3, h4⟩; exact absurd ⟨raw, q, h3, h4⟩ h1
  · intro vs hv hn
    rcases hget vs hv with ⟨raw, q', h1, h2, h3⟩ | ⟨h1, h2⟩
    · exact absurd ⟨raw, q', h1, h2⟩ hn
    · exact h2
  · intro q hq
    have hok : (nodeSet P m ['K', 'M'] (.real (.fin q))).2 = .ok () :=
      (C50_set_iff P hs hs' m _ (.real (.fin q))).1.2 ⟨⟨by decide, by decide, by decide⟩, .real, ht, trivial, by intro h; cases h⟩
    obtain ⟨⟨v', h1, h2⟩, h3⟩ := C50_set_get P hs hs' hC isFloat hF m _ (.real (.fin q)) hq .real ht hok
    cases v' <;> simp only [Reads] at h2
    rename_i f
    cases f <;> simp only at h2
    unfold getKomi
    rw [h1, h2]

/-- C67: the handicap is the value of HA; None if there is none or it is 0; ValueError if it is 1 or isn't one number. -/
theorem C67_handicap (P : Presenter) (ht : P.effectiveType ['H', 'A'] = .ok .number) (m : PropMap) :
    (lookup m ['H', 'A'] = none → getHandicap P m = .ok none) ∧
    (∀ vs, lookup m ['H', 'A'] = some vs → ∀ h, getHandicap P m = .ok (some h) ↔ h ≠ 0 ∧ h ≠ 1 ∧ ∃ raw, vs = [raw] ∧ parseInt raw = .ok h) ∧
    (∀ vs, lookup m ['H', 'A'] = some vs → (getHandicap P m = .ok none ↔ ∃ raw, vs = [raw] ∧ parseInt raw = .ok 0)) ∧
    (∀ vs, lookup m ['H', 'A'] = some vs → (¬ ∃ raw h, vs = [raw] ∧ h ≠ 1 ∧ parseInt raw = .ok h) → getHandicap P m = .error .valueError) := by
  have hget : ∀ vs, lookup m ['H', 'A'] = some vs →
      (∃ raw h, vs = [raw] ∧ parseInt raw = .ok h ∧ getHandicap P m = if h = 0 then .ok none else if h = 1 then .error .valueError else .ok (some h)) ∨
      ((¬ ∃ raw h, vs = [raw] ∧ parseInt raw = .ok h) ∧ getHandicap P m = .error .valueError) := by
    intro vs hv
    unfold getHandicap
    rw [nodeGet_single ht hv]
    unfold Presenter.interpretAs singleValue
    match vs with
    | [] => exact .inr ⟨(by rintro ⟨_, _, h, _⟩; cases h), rfl⟩
    | [v] =>
      simp only [bind, Except.bind, interpretNumber]
      cases hr : parseInt v with
      | error e =>
        rw [parseInt_error hr]
        refine .inr ⟨?_, rfl⟩
        rintro ⟨_, _, h, h'⟩
        cases h
        rw [hr] at h'
        cases h'
      | ok h => exact .inl ⟨v, h, rfl, hr, rfl⟩
    | _ :: _ :: _ => exact .inr ⟨(by rintro ⟨_, _, h, _⟩; cases h), rfl⟩
  refine ⟨?_, ?_, ?_, ?_⟩
  · intro h
    unfold getHandicap
    rw [nodeGet_absent h]
  · intro vs hv k
    rcases hget vs hv with ⟨raw, h, h1, h2, h3⟩ | ⟨h1, h2⟩
    · rw [h3]
      subst h1
      constructor
      · intro hh
        split at hh
        · cases hh
        · split at hh
          · cases hh
          · cases hh
            exact ⟨by assumption, by assumption, raw, rfl, h2⟩
      · rintro ⟨a, b, raw', c, d⟩
        cases c
        rw [h2] at d
        cases d
        rw [if_neg a, if_neg b]
    · rw [h2]
      constructor
      · intro hh; cases hh
      · rintro ⟨_, _, raw', c, d⟩; exact absurd ⟨raw', k, c, d⟩ h1
  · intro vs hv
    rcases hget vs hv with ⟨raw, h, h1, h2, h3⟩ | ⟨h1, h2⟩
    · rw [h3]
      subst h1
      constructor
      · intro hh
        split at hh
        · rename_i h0; rw [h0] at h2; exact ⟨raw, rfl, h2⟩
        · split at hh <;> cases hh
      · rintro ⟨raw', c, d⟩
        cases c
        rw [h2] at d
        cases d
        rfl
    · rw [h2]
      constructor
      · intro hh; cases hh
      · rintro ⟨raw', c, d⟩; exact absurd ⟨raw', 0, c, d⟩ h1
  · intro vs hv hn
    rcases hget vs hv with ⟨raw, h, h1, h2, h3⟩ | ⟨h1, h2⟩
    · have : h = 1 := by
        by_contra h'
        exact hn ⟨raw, h, h1, h', h2⟩
      rw [h3, this]
      rfl
    · exact h2

theorem nearest_find {h : Heap PropMap} (ident : Str) {i : Nat} {l : List Nat} (hp : PathUp h i l) :
    ∃ x, Nearest h ident i x ∧ ∀ fuel, l.length ≤ fuel → x = (findLoop h (fun m => m.has ident) fuel i).map h.props := by
  have hno : ∀ m : PropMap, lookup m ident = none → m.has ident = false := by
    intro m hl
    rw [Bool.eq_false_iff]
    intro hh
    obtain ⟨v, hv⟩ := (has_iff _ _).1 hh
    rw [hl] at hv; cases hv
  have hhere : ∀ (j : Nat) (r : NodeRec PropMap) (vs : List Raw) (fuel : Nat), h[j]? = some r → lookup r.props ident = some vs → 1 ≤ fuel →
      some r.props = (findLoop h (fun m => m.has ident) fuel j).map h.props := by
    intro j r vs fuel e hl hf
    obtain ⟨fuel, rfl⟩ : ∃ k, fuel = k + 1 := ⟨fuel - 1, by omega⟩
    have : r.props.has ident = true := (has_iff _ _).2 ⟨vs, hl⟩
    rw [findLoop, e]
    simp only [this, if_true, Option.map_some, Heap.props, e]
  induction hp with
  | @root i r e hp =>
    cases hl : lookup r.props ident with
    | some vs => exact ⟨_, .here e hl, fun fuel hf => hhere i r vs fuel e hl (by simpa using hf)⟩
    | none =>
      refine ⟨_, .nowhere e hl hp, fun fuel hf => ?_⟩
      obtain ⟨fuel, rfl⟩ : ∃ k, fuel = k + 1 := ⟨fuel - 1, by simp at hf; omega⟩
      rw [findLoop, e]
      simp only [hno _ hl, hp, Bool.false_eq_true, if_false, Option.map_none]
  | @up i p r l e hp _ ih =>
    cases hl : lookup r.props ident with
    | some vs => exact ⟨_, .here e hl, fun fuel hf => hhere i r vs fuel e hl (by simp at hf; omega)⟩
    | none =>
      obtain ⟨x, h1, h2⟩ := ih
      refine ⟨x, .up e hl hp h1, fun fuel hf => ?_⟩
      obtain ⟨fuel, rfl⟩ : ∃ k, fuel = k + 1 := ⟨fuel - 1, by simp at hf; omega⟩
      rw [findLoop, e]
      simp only [hno _ hl, hp, Bool.false_eq_true, if_false]
      exact h2 fuel (by simpa using hf)

/-- C67: `find_property` gives the value of the property in the nearest of the node and its ancestors that has it, and
raises KeyError if there is none. -/
theorem C67_find_property (hF : ∀ q, ∀ c ∈ F.repr q, c ≠ ']' ∧ c ≠ '\\') {L : Lib} (hs : Session E F L) {n : Nat} (hn : n < L.heap.length)
    (g : GameRec) (ident : Str) :
    (Nearest L.heap ident n none ∧ L.findProperty g n ident = .error .keyError) ∨
    (∃ m, Nearest L.heap ident n (some m) ∧ L.findProperty g n ident = nodeGet g.presenter m ident) := by
  have he := (session_inv hF hs).edited
  have hp := C25_sequence_above he n hn
  obtain ⟨x, h1, h2⟩ := nearest_find ident hp
  replace h2 : x = (L.heap.find (fun m => m.has ident) n).map L.heap.props := h2 _ hp.length_le
  unfold Lib.findProperty
  cases hx : L.heap.find (fun m => m.has ident) n with
  | none => rw [hx] at h2; subst h2; exact .inl ⟨h1, rfl⟩
  | some i => rw [hx] at h2; subst h2; exact .inr ⟨_, h1, rfl⟩

/-! ### Dates -/

theorem enc_asciiOnly {C : Codec} (hC : Transcodable C) : ∀ {s : Str}, (∀ c ∈ s, c.toNat < 128) → C.enc s = some s
  | [], _ => hC.enc_nil
  | c :: s, h => by
    have := hC.enc_ascii [] c s (h c (by simp))
    rw [List.nil_append] at this
    rw [this, hC.enc_nil, enc_asciiOnly hC (fun d hd => h d (List.mem_cons_of_mem _ hd))]
    rfl

theorem digit_ascii {c : Char} (h : c.isDigit = true) : c.toNat < 128 ∧ c ≠ '\n' ∧ c ≠ '\r' ∧ c ≠ '\t' ∧ c ≠ Char.ofNat 11 ∧ c ≠ Char.ofNat 12 := by
  refine ⟨?_, ne_of_isDigit h (by decide), ne_of_isDigit h (by decide), ne_of_isDigit h (by decide), ne_of_isDigit h (by decide), ne_of_isDigit h (by decide)⟩
  simp only [Char.isDigit, Bool.and_eq_true, decide_eq_true_eq] at h
  have h2 : c.val ≤ 57 := h.2
  have h3 : c.val.toNat ≤ 57 := h2
  show c.val.toNat < 128
  omega

theorem twoDigits_spec : ∀ n < 100, (twoDigits n).length = 2 ∧ parseInt (twoDigits n) = .ok n ∧ ∀ c ∈ twoDigits n, c.isDigit = true := by
  decide +kernel

theorem year_length {n : Nat} (h1 : 1000 ≤ n) (h2 : n ≤ 9999) : (Nat.toDigits 10 n).length = 4 := by
  have a : (Nat.toDigits 10 n).length ≤ 4 := (Nat.length_toDigits_le_iff (by decide) (by decide)).2 (by omega)
  have b : ¬ (Nat.toDigits 10 n).length ≤ 3 := by
    intro h
    have := (Nat.length_toDigits_le_iff (by decide) (by decide)).1 h
    omega
  omega

/-- The text is a date in the form YYYY-MM-DD. -/
def IsDate (s : Str) (d : Date) : Prop :=
  ∃ y m a : Str, s = y ++ '-' :: m ++ '-' :: a ∧ y.length = 4 ∧ m.length = 2 ∧ a.length = 2 ∧ (∀ c ∈ y ++ m ++ a, c.isDigit = true) ∧
    parseInt y = .ok d.year ∧ parseInt m = .ok d.month ∧ parseInt a = .ok d.day

/-- C67: `set_date` sets DT to the date in the form YYYY-MM-DD, and changes nothing else; for a year before 1900 it raises
ValueError and changes nothing. -/
theorem C67_date (P : Presenter) (hs : 1 ≤ P.size) (hs' : P.size ≤ 25) (hC : Transcodable P.codec)
    (isFloat : Rat → Prop) (hF : FloatsOK P.floats isFloat) (ht : P.effectiveType ['D', 'T'] = .ok .simpletext) (m : PropMap) (d : Date)
    (hy : d.year ≤ 9999) (hm : d.month ≤ 12) (hd : d.day ≤ 31) :
    (d.year < 1900 → setDate P m d = (m, .error .valueError)) ∧
    (1900 ≤ d.year → (setDate P m d).2 = .ok () ∧ (∃ s, nodeGet P (setDate P m d).1 ['D', 'T'] = .ok (.str s) ∧ IsDate s d) ∧
      ∀ k, k ≠ ['D', 'T'] → lookup (setDate P m d).1 k = lookup m k) := by
  constructor
  · intro h
    unfold setDate Date.strftime
    rw [if_pos h]
  · intro h
    obtain ⟨m1, m2, m3⟩ := twoDigits_spec d.month (by omega)
    obtain ⟨a1, a2, a3⟩ := twoDigits_spec d.day (by omega)
    have hstr : d.strftime = .ok (Nat.toDigits 10 d.year ++ '-' :: twoDigits d.month ++ '-' :: twoDigits d.day) := by
      unfold Date.strftime
      rw [if_neg (by omega)]
      simp
    generalize hS : Nat.toDigits 10 d.year ++ '-' :: twoDigits d.month ++ '-' :: twoDigits d.day = S at hstr
    have hdate : IsDate S d := by
      refine ⟨_, _, _, hS.symm, year_length (by omega) hy, m1, a1, ?_, ?_, m2, a2⟩
      · intro c hc
        simp only [List.mem_append] at hc
        rcases hc with (hc | hc) | hc
        · exact toDigits_isDigit hc
        · exact m3 c hc
        · exact a3 c hc
      · rw [← strInt_natCast]
        exact parseInt_strInt _
    have hch : ∀ c ∈ S, c.toNat < 128 ∧ c ≠ '\n' ∧ c ≠ '\r' ∧ c ≠ '\t' ∧ c ≠ Char.ofNat 11 ∧ c ≠ Char.ofNat 12 := by
      intro c hc
      rw [← hS] at hc
      simp only [List.mem_append, List.mem_cons] at hc
      rcases hc with (hc | rfl | hc) | rfl | hc
      · exact digit_ascii (toDigits_isDigit hc)
      · decide
      · exact digit_ascii (m3 c hc)
      · decide
      · exact digit_ascii (a3 c hc)
    have henc := enc_asciiOnly hC (fun c hc => (hch c hc).1)
    have hset : setDate P m d = nodeSet P m ['D', 'T'] (.str S) := by unfold setDate; rw [hstr]
    rw [hset]
    have hok : (nodeSet P m ['D', 'T'] (.str S)).2 = .ok () :=
      (C50_set_iff P hs hs' m _ (.str S)).1.2 ⟨⟨by decide, by decide, by decide⟩, .simpletext, ht, ⟨S, henc⟩, by intro h; cases h⟩
    obtain ⟨⟨v', h1, h2⟩, h3⟩ := C50_set_get P hs hs' hC.toAsciiCompatible isFloat hF m _ (.str S)
      (utf8Valid_of_ascii (fun c hc => (hch c hc).1)) .simpletext ht hok
    refine ⟨hok, ?_, h3⟩
    cases v' <;> simp only [Reads] at h2
    rename_i S'
    refine ⟨S', h1, ?_⟩
    have : S' = S := by
      rw [normalised_eq h2]
      exact normText_oneLine (fun c hc => ⟨(hch c hc).2.2.1, (hch c hc).2.1, (hch c hc).2.2.2⟩)
    rw [this]
    exact hdate

/-- The root node of a game, as a program might write it. -/
def exampleRoot : PropMap := [(['S', 'Z'], [['9']]), (['P', 'B'], ["Hon'inbo".toList]), (['P', 'W'], ["a\\]b".toList]),
  (['R', 'E'], ["w+R".toList]), (['K', 'M'], ["6.5".toList]), (['H', 'A'], [['2']]), (['C', 'A'], ["UTF-8".toList])]

/-- C67: non-vacuity. -/
theorem C67_witness : FloatsOK examplePresenter.floats exampleIsFloat ∧ Transcodable examplePresenter.codec ∧
    (∀ ident, ident = ['P', 'B'] ∨ ident = ['P', 'W'] ∨ ident = ['R', 'E'] ∨ ident = ['D', 'T'] → examplePresenter.effectiveType ident = .ok .simpletext) ∧
    examplePresenter.effectiveType ['K', 'M'] = .ok .real ∧ examplePresenter.effectiveType ['H', 'A'] = .ok .number ∧
    getPlayerName examplePresenter exampleRoot .b = .ok (some (.str "Hon'inbo".toList)) ∧
    getPlayerName examplePresenter exampleRoot .w = .ok (some (.str "a]b".toList)) ∧
    getWinner examplePresenter exampleRoot = .ok (some .w) ∧ getKomi examplePresenter exampleRoot = .ok (.real (.fin (13/2))) ∧
    getHandicap examplePresenter exampleRoot = .ok (some 2) ∧
    (setDate examplePresenter [] ⟨2011, 3, 7⟩).1 = [(['D', 'T'], ["2011-03-07".toList])] := by
  refine ⟨exampleFloats_ok, utf8_transcodable, ?_, rfl, rfl, by decide +kernel, by decide +kernel, by decide +kernel, by decide +kernel, by decide +kernel,
    by decide +kernel⟩
  rintro ident (rfl | rfl | rfl | rfl) <;> rfl

/-- C67: non-vacuity of `find_property`. -/
theorem C67_find_witness : Session exampleEncodings noFloats exampleLib1 ∧
    exampleLib1.findProperty exampleGame 1 ['G', 'M'] = .ok (.num 1) ∧
    exampleLib1.findProperty exampleGame 1 ['B'] = .ok (.move (some (0, 8))) ∧
    exampleLib1.findProperty exampleGame 1 ['K', 'M'] = .error .keyError :=
  ⟨exampleSession1, by decide +kernel, by decide +kernel, by decide +kernel⟩

/-- C52: non-vacuity of loading, with an override. -/
theorem C52_load_witness : ValidTree (.mk [exampleRoot, [(['B'], ["ee".toList])]] []) ∧ EffectiveSize exampleRoot 9 ∧
    SourceEncoding exampleRoot (some "ISO-8859-1".toList) "ISO-8859-1".toList ∧
    (∃ M, Lib.load exampleEncodings noFloats ⟨[], []⟩ (.mk [exampleRoot, [(['B'], ["ee".toList])]] []) (some "ISO-8859-1".toList) = .ok M ∧
      lookup (M.heap.props 0) ['C', 'A'] = some ["ISO-8859-1".toList]) := by
  have hv : ValidTree (.mk [exampleRoot, [(['B'], ["ee".toList])]] []) := by
    refine .mk (by simp) ?_ (by simp)
    intro m hm
    simp only [List.mem_cons, List.not_mem_nil, or_false] at hm
    have hval : ∀ (m : PropMap), (∀ p ∈ m, ∀ v ∈ p.2, isValidValue v = true) → ∀ p ∈ m, ∀ v ∈ p.2, ValidValue v :=
      fun m h p hp v hv => (isValidValue_iff v).1 (h p hp v hv)
    rcases hm with rfl | rfl
    · refine ⟨by decide, ?_, by decide, hval _ (by decide)⟩
      intro p hp
      refine (isValidIdent_iff _).1 ?_
      revert p
      decide
    · refine ⟨by decide, ?_, by decide, hval _ (by decide)⟩
      intro p hp
      refine (isValidIdent_iff _).1 ?_
      revert p
      decide
  have hs : EffectiveSize exampleRoot 9 := by
    show parseInt ['9'] = .ok 9
    decide
  refine ⟨hv, hs, rfl, ?_⟩
  obtain ⟨h1, h2⟩ := C52_load (F := noFloats) exampleNames rfl hv (some "ISO-8859-1".toList) ⟨[], []⟩
  obtain ⟨M, hM⟩ := h1.2 ⟨9, _, "ISO-8859-1".toList, hs, by decide, by decide, rfl, by decide⟩
  exact ⟨M, hM, by
    have : Lib.load exampleEncodings noFloats ⟨[], []⟩ (.mk [exampleRoot, [(['B'], ["ee".toList])]] []) (some "ISO-8859-1".toList) = .ok M := hM
    have e : (Lib.load exampleEncodings noFloats ⟨[], []⟩ (.mk [exampleRoot, [(['B'], ["ee".toList])]] []) (some "ISO-8859-1".toList)).map
        (fun M => lookup (M.heap.props 0) ['C', 'A']) = .ok (some ["ISO-8859-1".toList]) := by decide +kernel
    rw [this] at e
    simp only [Except.map, Except.ok.injEq] at e
    exact e⟩

end Gomill.Sgf
