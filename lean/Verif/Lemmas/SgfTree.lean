import Verif.Spec.SgfTree
import Verif.Lemmas.Py
/-
Lemmas for node trees.
-/
namespace Gomill.Sgf

open Py

variable {α : Type}

/-! ### Rep -/

mutual
theorem rep_frame {h h' : Heap α} {o : Nat} {par : Option Nat} {i : Nat} : ∀ {t : NTree α} {ids : List Nat},
    (∀ j ∈ ids, h'[j]? = h[j]?) → Rep h o par i t ids → Rep h' o par i t ids
  | .mk p ts, ids, hf, hr => by
    rw [Rep] at hr ⊢
    obtain ⟨r, rest, rfl, h1, h2, h3, h4, h5⟩ := hr
    exact ⟨r, rest, rfl, by rw [hf i (by simp), h1], h2, h3, h4, repL_frame (fun j hj => hf j (List.mem_cons_of_mem _ hj)) h5⟩
theorem repL_frame {h h' : Heap α} {o : Nat} {par : Option Nat} : ∀ {is : List Nat} {ts : List (NTree α)} {ids : List Nat},
    (∀ j ∈ ids, h'[j]? = h[j]?) → RepL h o par is ts ids → RepL h' o par is ts ids
  | [], [], ids, _, hr => hr
  | i :: is, t :: ts, ids, hf, hr => by
    rw [RepL] at hr ⊢
    obtain ⟨a, b, rfl, h1, h2⟩ := hr
    exact ⟨a, b, rfl, rep_frame (fun j hj => hf j (List.mem_append_left _ hj)) h1,
      repL_frame (fun j hj => hf j (List.mem_append_right _ hj)) h2⟩
  | [], _ :: _, _, _, hr => by simp [RepL] at hr
  | _ :: _, [], _, _, hr => by simp [RepL] at hr
end

mutual
theorem rep_lt {h : Heap α} {o : Nat} {par : Option Nat} {i : Nat} : ∀ {t : NTree α} {ids : List Nat},
    Rep h o par i t ids → ∀ j ∈ ids, j < h.length
  | .mk p ts, ids, hr => by
    rw [Rep] at hr
    obtain ⟨r, rest, rfl, h1, h2, h3, h4, h5⟩ := hr
    intro j hj
    rcases List.mem_cons.1 hj with rfl | hj
    · exact (List.getElem?_eq_some_iff.1 h1).1
    · exact repL_lt h5 j hj
theorem repL_lt {h : Heap α} {o : Nat} {par : Option Nat} : ∀ {is : List Nat} {ts : List (NTree α)} {ids : List Nat},
    RepL h o par is ts ids → ∀ j ∈ ids, j < h.length
  | [], [], ids, hr => by rw [RepL] at hr; subst hr; simp
  | i :: is, t :: ts, ids, hr => by
    rw [RepL] at hr
    obtain ⟨a, b, rfl, h1, h2⟩ := hr
    intro j hj
    rcases List.mem_append.1 hj with hj | hj
    · exact rep_lt h1 j hj
    · exact repL_lt h2 j hj
  | [], _ :: _, _, hr => by simp [RepL] at hr
  | _ :: _, [], _, hr => by simp [RepL] at hr
end

theorem repL_snoc {h : Heap α} {o : Nat} {par : Option Nat} {is : List Nat} {ts : List (NTree α)} {a b : List Nat}
    {i : Nat} {t : NTree α} (h1 : RepL h o par is ts a) (h2 : Rep h o par i t b) :
    RepL h o par (is ++ [i]) (ts ++ [t]) (a ++ b) := by
  induction is generalizing ts a with
  | nil =>
    cases ts with
    | nil =>
      rw [RepL] at h1; subst h1
      simp only [List.nil_append]
      rw [RepL]
      exact ⟨b, [], by simp, h2, by rw [RepL]⟩
    | cons _ _ => simp [RepL] at h1
  | cons j is ih =>
    cases ts with
    | nil => simp [RepL] at h1
    | cons t' ts =>
      rw [RepL] at h1
      obtain ⟨a1, a2, rfl, h3, h4⟩ := h1
      simp only [List.cons_append]
      rw [RepL]
      exact ⟨a1, a2 ++ b, by simp, h3, ih h4⟩

theorem nodesL_append (a b : List (Coarse α)) : nodesL (a ++ b) = nodesL a ++ nodesL b := by
  induction a with
  | nil => simp [nodesL]
  | cons c a ih => simp [nodesL, ih]

theorem sizeL_append (a b : List (Coarse α)) : sizeL (a ++ b) = sizeL a + sizeL b := by
  induction a with
  | nil => simp [sizeL]
  | cons c a ih => simp [sizeL, ih]; omega

theorem chain_cons (p : α) (ps : List α) (ts : List (NTree α)) : chain (p :: ps) ts = [.mk p (chain ps ts)] := rfl

/-! ### Heap updates -/

theorem setChildren_get {h : Heap α} {i : Nat} {f : List Nat → List Nat} (j : Nat) :
    (h.setChildren i f)[j]? = (h[j]?).map (fun r => if i = j then { r with children := f r.children } else r) := by
  unfold Heap.setChildren
  rw [List.getElem?_modify]
  split <;> rename_i hij <;> cases h[j]? <;> simp

theorem setParent_get {h : Heap α} {i : Nat} {p : Option Nat} (j : Nat) :
    (h.setParent i p)[j]? = (h[j]?).map (fun r => if i = j then { r with parent := p } else r) := by
  unfold Heap.setParent
  rw [List.getElem?_modify]
  split <;> rename_i hij <;> cases h[j]? <;> simp

theorem setChildren_length {h : Heap α} {i : Nat} {f : List Nat → List Nat} : (h.setChildren i f).length = h.length := by
  unfold Heap.setChildren; simp

theorem setParent_length {h : Heap α} {i : Nat} {p : Option Nat} : (h.setParent i p).length = h.length := by
  unfold Heap.setParent; simp

/-- Adding a new node below an existing one. -/
theorem grow_spec {h : Heap α} {node : Nat} {r : NodeRec α} (hr : h[node]? = some r) (p : α) :
    ((h.newNode node p).addChild node h.length).length = h.length + 1 ∧
    ((h.newNode node p).addChild node h.length)[node]? = some { r with children := r.children ++ [h.length] } ∧
    ((h.newNode node p).addChild node h.length)[h.length]? = some ⟨r.owner, some node, [], p⟩ ∧
    ∀ j, j < h.length → j ≠ node → ((h.newNode node p).addChild node h.length)[j]? = h[j]? := by
  have hlt := (List.getElem?_eq_some_iff.1 hr).1
  unfold Heap.addChild Heap.newNode
  refine ⟨by rw [setChildren_length]; simp, ?_, ?_, ?_⟩
  · rw [setChildren_get, List.getElem?_append_left hlt, hr]; simp
  · rw [setChildren_get, List.getElem?_append_right (Nat.le_refl _)]
    have : ¬ node = h.length := by omega
    simp [this, Heap.owner, hr]
  · intro j hj hne
    rw [setChildren_get, List.getElem?_append_left hj]
    have : ¬ node = j := fun e => hne e.symm
    cases h[j]? <;> simp [this]

/-! ### make_tree -/

/-- What is known of a node waiting on the stack. -/
structure Fresh (h : Heap α) (o : Nat) (par : Option Nat) (i : Nat) (p : α) : Prop where
  get : h[i]? = some ⟨o, par, [], p⟩

/-- The first property map of a coarse tree. -/
def Coarse.HeadIs (c : Coarse α) (p : α) : Prop := ∃ s cs, c = .mk (p :: s) cs

theorem addChildTrees_spec (node : Nat) (cs : List (Coarse α)) (hc : ∀ c ∈ cs, c.Nonempty) :
    ∀ (h : Heap α) (st : List (Nat × Coarse α × Nat)) (r : NodeRec α), h[node]? = some r →
    ∃ (h2 : Heap α) (M : List (Nat × Coarse α)),
      addChildTrees node cs h st = .ok (h2, M.map (fun x => (x.1, x.2, 0)) ++ st) ∧
      (M.map Prod.snd).reverse = cs ∧ (M.map Prod.fst).Nodup ∧
      (∀ x ∈ M, h.length ≤ x.1 ∧ ∃ p, x.2.HeadIs p ∧ Fresh h2 r.owner (some node) x.1 p) ∧
      h2[node]? = some { r with children := r.children ++ (M.map Prod.fst).reverse } ∧
      (∀ j, j < h.length → j ≠ node → h2[j]? = h[j]?) ∧ h.length ≤ h2.length := by
  induction cs with
  | nil => intro h st r hr; exact ⟨h, [], rfl, rfl, List.nodup_nil, by simp, by simpa using hr, by simp, Nat.le_refl _⟩
  | cons c cs ih =>
    intro h st r hr
    obtain ⟨p, s, ccs, rfl⟩ : ∃ p s ccs, c = .mk (p :: s) ccs := by
      cases hc c (by simp) with
      | mk h => exact ⟨_, _, _, rfl⟩
    have hlt := (List.getElem?_eq_some_iff.1 hr).1
    obtain ⟨g1, g2, g3, g4⟩ := grow_spec hr p
    obtain ⟨h2, M, e1, e2, e3, e4, e5, e6, e7⟩ := ih (fun c hc' => hc c (List.mem_cons_of_mem _ hc'))
      ((h.newNode node p).addChild node h.length) ((h.length, .mk (p :: s) ccs, 0) :: st) _ g2
    refine ⟨h2, M ++ [(h.length, .mk (p :: s) ccs)], ?_, ?_, ?_, ?_, ?_, ?_, ?_⟩
    · rw [addChildTrees, e1]; simp
    · simp [e2]
    · rw [List.map_append, List.nodup_append]
      refine ⟨e3, by simp, ?_⟩
      intro a ha b hb hab
      simp only [List.map_cons, List.map_nil, List.mem_cons, List.not_mem_nil, or_false] at hb
      obtain ⟨x, hx, rfl⟩ := List.mem_map.1 ha
      have := (e4 x hx).1
      omega
    · intro x hx
      rcases List.mem_append.1 hx with hx | hx
      · obtain ⟨f1, f2⟩ := e4 x hx
        exact ⟨by omega, f2⟩
      · simp only [List.mem_cons, List.not_mem_nil, or_false] at hx
        subst hx
        refine ⟨Nat.le_refl _, p, ⟨s, ccs, rfl⟩, ⟨?_⟩⟩
        rw [e6 h.length (by omega) (by omega), g3]
    · rw [e5]; simp
    · intro j hj hne
      rw [e6 j (by omega) hne, g4 j hj hne]
    · omega

theorem Coarse.size_pos {c : Coarse α} (h : c.Nonempty) : 1 ≤ c.size := by
  cases h with
  | mk _ => rw [Coarse.size]; simp; omega

theorem size_le_sizeL {c : Coarse α} {cs : List (Coarse α)} (h : c ∈ cs) : c.size ≤ sizeL cs := by
  induction cs with
  | nil => simp at h
  | cons d cs ih =>
    rw [sizeL]
    rcases List.mem_cons.1 h with rfl | h
    · omega
    · have := ih h; omega

/-- The result of building one stack entry. -/
structure Built (h h' : Heap α) (o : Nat) (par : Option Nat) (node : Nat) (t : NTree α) (ids : List Nat) : Prop where
  rep : Rep h' o par node t ids
  nodup : ids.Nodup
  ids : ∀ j ∈ ids, j = node ∨ h.length ≤ j
  frame : ∀ j, j < h.length → j ≠ node → h'[j]? = h[j]?
  len : h.length ≤ h'.length

/-- The claim about one stack entry. -/
def BuildsEntry (α : Type) (m : Nat) : Prop :=
  ∀ (pre : List α) (p : α) (rest : List α) (cs : List (Coarse α)), (∀ c ∈ cs, c.Nonempty) → rest.length + sizeL cs ≤ m →
  ∀ (h : Heap α) (node : Nat) (o : Nat) (par : Option Nat) (st : List (Nat × Coarse α × Nat)) (fuel : Nat),
    Fresh h o par node p →
    ∃ h' t ids, makeTreeLoop (1 + rest.length + sizeL cs + fuel) h ((node, .mk (pre ++ p :: rest) cs, pre.length) :: st) =
        makeTreeLoop fuel h' st ∧
      chain (p :: rest) (nodesL cs) = [t] ∧ Built h h' o par node t ids

theorem builds_list {m : Nat} (hm : BuildsEntry α m) (par : Nat) (o : Nat) (st : List (Nat × Coarse α × Nat)) (fuel : Nat) :
    ∀ (M : List (Nat × Coarse α)), (∀ x ∈ M, x.2.Nonempty ∧ x.2.size ≤ m + 1) → (M.map Prod.fst).Nodup →
    ∀ (h : Heap α), (∀ x ∈ M, ∃ p, x.2.HeadIs p ∧ Fresh h o (some par) x.1 p) →
    ∃ h' ids, makeTreeLoop (sizeL (M.map Prod.snd) + fuel) h (M.map (fun x => (x.1, x.2, 0)) ++ st) = makeTreeLoop fuel h' st ∧
      RepL h' o (some par) (M.map Prod.fst).reverse (nodesL (M.map Prod.snd).reverse) ids ∧ ids.Nodup ∧
      (∀ j ∈ ids, j ∈ M.map Prod.fst ∨ h.length ≤ j) ∧
      (∀ j, j < h.length → j ∉ M.map Prod.fst → h'[j]? = h[j]?) ∧ h.length ≤ h'.length := by
  intro M
  induction M with
  | nil =>
    intro _ _ h _
    exact ⟨h, [], by simp [sizeL], by simp [nodesL, RepL], List.nodup_nil, by simp, by simp, Nat.le_refl _⟩
  | cons x M ih =>
    intro hne hnd h hf
    obtain ⟨i, c⟩ := x
    obtain ⟨p, ⟨s, cs, rfl⟩, hfr⟩ := hf (i, c) (by simp)
    have hi := (List.getElem?_eq_some_iff.1 hfr.get).1
    obtain ⟨hcne, hcs⟩ := hne (i, .mk (p :: s) cs) (by simp)
    have hcs' : ∀ c ∈ cs, c.Nonempty := by cases hcne with | mk h => exact h
    rw [Coarse.size] at hcs
    obtain ⟨h1, t, ids1, e1, e2, e3⟩ := hm [] p s cs hcs' (by simp at hcs; omega) h i o (some par)
      (M.map (fun x => (x.1, x.2, 0)) ++ st) (sizeL (M.map Prod.snd) + fuel) hfr
    rw [List.map_cons, List.nodup_cons] at hnd
    obtain ⟨h2, ids2, f1, f2, f3, f4, f5, f6⟩ := ih (fun x hx => hne x (List.mem_cons_of_mem _ hx)) hnd.2 h1 (by
      intro x hx
      obtain ⟨q, hq1, hq2⟩ := hf x (List.mem_cons_of_mem _ hx)
      refine ⟨q, hq1, ⟨?_⟩⟩
      rw [e3.frame x.1 (List.getElem?_eq_some_iff.1 hq2.get).1, hq2.get]
      rintro he
      have hmem : x.1 ∈ M.map Prod.fst := List.mem_map_of_mem hx
      rw [he] at hmem
      exact hnd.1 hmem)
    have key : ∀ j ∈ ids1, j ∉ M.map Prod.fst := by
      intro j hj hm
      rcases e3.ids j hj with rfl | hge
      · exact hnd.1 hm
      · obtain ⟨x, hx, rfl⟩ := List.mem_map.1 hm
        obtain ⟨q, _, hq2⟩ := hf x (List.mem_cons_of_mem _ hx)
        have := (List.getElem?_eq_some_iff.1 hq2.get).1
        omega
    have hrep : Rep h2 o (some par) i t ids1 :=
      rep_frame (fun j hj => f5 j (rep_lt e3.rep j hj) (key j hj)) e3.rep
    refine ⟨h2, ids2 ++ ids1, ?_, ?_, ?_, ?_, ?_, ?_⟩
    · rw [← f1, ← e1, List.map_cons, List.map_cons, sizeL, Coarse.size]
      simp only [List.nil_append, List.length_nil, List.cons_append, List.length_cons]
      congr 1
      omega
    · rw [List.map_cons, List.reverse_cons, List.map_cons, List.reverse_cons, nodesL_append]
      have : nodesL [(.mk (p :: s) cs : Coarse α)] = [t] := by
        rw [nodesL, Coarse.nodes, e2, nodesL, List.append_nil]
      rw [this]
      exact repL_snoc f2 hrep
    · rw [List.nodup_append]
      refine ⟨f3, e3.nodup, ?_⟩
      intro a ha b hb hab
      subst hab
      have hb' := rep_lt e3.rep a hb
      rcases f4 a ha with h | h
      · exact key a hb h
      · omega
    · intro j hj
      rcases List.mem_append.1 hj with hj | hj
      · rcases f4 j hj with h | h
        · exact Or.inl (by rw [List.map_cons]; exact List.mem_cons_of_mem _ h)
        · exact Or.inr (Nat.le_trans e3.len h)
      · rcases e3.ids j hj with rfl | h
        · exact Or.inl (by simp)
        · exact Or.inr h
    · intro j hj hjm
      rw [List.map_cons, List.mem_cons, not_or] at hjm
      rw [f5 j (Nat.lt_of_lt_of_le hj e3.len) hjm.2, e3.frame j hj hjm.1]
    · exact Nat.le_trans e3.len f6

theorem sizeL_reverse (l : List (Coarse α)) : sizeL l.reverse = sizeL l := by
  induction l with
  | nil => rfl
  | cons c l ih => rw [List.reverse_cons, sizeL_append, ih, sizeL, sizeL, sizeL]; omega

theorem buildsEntry (m : Nat) : BuildsEntry α m := by
  induction m using Nat.strongRecOn with
  | _ m ih =>
    intro pre p rest cs hcs hle h node o par st fuel hfr
    have hlt := (List.getElem?_eq_some_iff.1 hfr.get).1
    cases rest with
    | cons q rest =>
      obtain ⟨g1, g2, g3, g4⟩ := grow_spec hfr.get q
      simp only at g2 g3
      have hle' : rest.length + sizeL cs < m := by simp at hle; omega
      obtain ⟨h', t, ids, e1, e2, e3⟩ := ih (rest.length + sizeL cs) hle' (pre ++ [p]) q rest cs hcs (Nat.le_refl _)
        ((h.newNode node q).addChild node h.length) h.length o (some node) st fuel ⟨g3⟩
      refine ⟨h', .mk p [t], node :: ids, ?_, ?_, ?_⟩
      · rw [← e1, List.length_cons]
        have : 1 + (rest.length + 1) + sizeL cs + fuel = (1 + rest.length + sizeL cs + fuel) + 1 := by omega
        rw [this, makeTreeLoop, if_pos (by simp)]
        have : (pre ++ p :: q :: rest)[pre.length + 1]? = some q := by
          rw [List.getElem?_append_right (by omega)]; simp
        rw [this]
        simp
      · rw [chain_cons, e2]
      · have hne : node ∉ ids := by
          intro hm
          rcases e3.ids node hm with h | h <;> omega
        refine ⟨?_, List.nodup_cons.2 ⟨hne, e3.nodup⟩, ?_, ?_, by have := e3.len; omega⟩
        · rw [Rep]
          refine ⟨⟨o, par, [] ++ [h.length], p⟩, ids, rfl, ?_, ?_⟩
          · rw [e3.frame node (by omega) (by omega), g2]
          · refine ⟨rfl, rfl, rfl, ?_⟩
            simp only [List.nil_append]
            rw [RepL]
            exact ⟨ids, [], by simp, e3.rep, by rw [RepL]⟩
        · intro j hj
          rcases List.mem_cons.1 hj with rfl | hj
          · exact Or.inl rfl
          · rcases e3.ids j hj with rfl | h
            · exact Or.inr (Nat.le_refl _)
            · exact Or.inr (by omega)
        · intro j hj hne
          rw [e3.frame j (by omega) (by omega), g4 j hj hne]
    | nil =>
      have hsc : (h.setChildren node (fun _ => []))[node]? = some ⟨o, par, [], p⟩ := by
        rw [setChildren_get, hfr.get]; simp
      have hsf : ∀ j, j ≠ node → (h.setChildren node (fun _ => []))[j]? = h[j]? := by
        intro j hne
        rw [setChildren_get]
        have : ¬ node = j := fun e => hne e.symm
        cases h[j]? <;> simp [this]
      obtain ⟨h2, M, e1, e2, e3, e4, e5, e6, e7⟩ := addChildTrees_spec node cs hcs _ st _ hsc
      rw [setChildren_length] at e4 e6 e7
      simp only [List.nil_append] at e5
      have hsz : ∀ x ∈ M, x.2.Nonempty ∧ x.2 ∈ cs := by
        intro x hx
        have : x.2 ∈ cs := by rw [← e2, List.mem_reverse]; exact List.mem_map_of_mem hx
        exact ⟨hcs _ this, this⟩
      have hblist : ∃ h' ids, makeTreeLoop (sizeL (M.map Prod.snd) + fuel) h2 (M.map (fun x => (x.1, x.2, 0)) ++ st) =
          makeTreeLoop fuel h' st ∧
          RepL h' o (some node) (M.map Prod.fst).reverse (nodesL (M.map Prod.snd).reverse) ids ∧ ids.Nodup ∧
          (∀ j ∈ ids, j ∈ M.map Prod.fst ∨ h2.length ≤ j) ∧
          (∀ j, j < h2.length → j ∉ M.map Prod.fst → h'[j]? = h2[j]?) ∧ h2.length ≤ h'.length := by
        by_cases hM : M = []
        · subst hM
          exact ⟨h2, [], by simp [sizeL], by simp [nodesL, RepL], List.nodup_nil, by simp, by simp, Nat.le_refl _⟩
        · obtain ⟨x, hx⟩ := List.exists_mem_of_ne_nil _ hM
          have h1 := Coarse.size_pos (hsz x hx).1
          have h2' := size_le_sizeL (hsz x hx).2
          simp only [List.length_nil, Nat.zero_add] at hle
          refine builds_list (ih (m - 1) (by omega)) node o st fuel M ?_ e3 h2 (fun x hx => (e4 x hx).2)
          intro y hy
          have := size_le_sizeL (hsz y hy).2
          exact ⟨(hsz y hy).1, by omega⟩
      obtain ⟨h', ids, f1, f2, f3, f4, f5, f6⟩ := hblist
      have hMge : ∀ j ∈ M.map Prod.fst, h.length ≤ j := by
        intro j hj
        obtain ⟨x, hx, rfl⟩ := List.mem_map.1 hj
        exact (e4 x hx).1
      have hids : ∀ j ∈ ids, h.length ≤ j := by
        intro j hj
        rcases f4 j hj with h | h
        · exact hMge j h
        · omega
      refine ⟨h', .mk p (nodesL cs), node :: ids, ?_, rfl, ?_⟩
      · rw [← f1]
        have : 1 + ([] : List α).length + sizeL cs + fuel = (sizeL cs + fuel) + 1 := by simp; omega
        rw [this, makeTreeLoop, if_neg (by simp), e1]
        simp only
        rw [← e2, sizeL_reverse]
      · refine ⟨?_, List.nodup_cons.2 ⟨fun hm => by have := hids node hm; omega, f3⟩, ?_, ?_, by omega⟩
        · rw [Rep]
          refine ⟨⟨o, par, (M.map Prod.fst).reverse, p⟩, ids, rfl, ?_, ?_⟩
          · rw [f5 node (by omega) (fun hm => by have := hMge node hm; omega), e5]
          · refine ⟨rfl, rfl, rfl, ?_⟩
            simp only
            rw [← e2]
            exact f2
        · intro j hj
          rcases List.mem_cons.1 hj with rfl | hj
          · exact Or.inl rfl
          · exact Or.inr (hids j hj)
        · intro j hj hne
          rw [f5 j (by omega) (fun hm => by have := hMge j hm; omega), e6 j hj hne, hsf j hne]

/-- `make_tree` builds the nodes that the coarse tree stands for. -/
theorem makeTree_spec {c : Coarse α} {p : α} {s : List α} {cs : List (Coarse α)} (hc : c = .mk (p :: s) cs)
    (hn : c.Nonempty) {h : Heap α} {root o : Nat} (hr : Fresh h o none root p) :
    ∃ h' t ids, makeTree c h root = .ok h' ∧ c.nodes = [t] ∧ Built h h' o none root t ids := by
  subst hc
  have hcs' : ∀ c ∈ cs, c.Nonempty := by cases hn with | mk h => exact h
  obtain ⟨h', t, ids, e1, e2, e3⟩ := buildsEntry (s.length + sizeL cs) [] p s cs hcs' (Nat.le_refl _) h root o none [] 1 hr
  refine ⟨h', t, ids, ?_, ?_, e3⟩
  · unfold makeTree
    rw [Coarse.size]
    simp only [List.nil_append, List.length_nil] at e1
    have : (p :: s).length + sizeL cs + 1 = 1 + s.length + sizeL cs + 1 := by simp; omega
    rw [this, e1, makeTreeLoop]
  · rw [Coarse.nodes, e2]

/-! ### make_coarse_game_tree -/

theorem repL_snoc_inv {h : Heap α} {o : Nat} {par : Option Nat} {is : List Nat} {ts : List (NTree α)} {ids : List Nat}
    {i : Nat} (hr : RepL h o par (is ++ [i]) ts ids) :
    ∃ ts' t a b, ts = ts' ++ [t] ∧ ids = a ++ b ∧ RepL h o par is ts' a ∧ Rep h o par i t b := by
  induction is generalizing ts ids with
  | nil =>
    cases ts with
    | nil => simp [RepL] at hr
    | cons t ts =>
      rw [List.nil_append, RepL] at hr
      obtain ⟨a, b, rfl, h1, h2⟩ := hr
      cases ts with
      | nil =>
        rw [RepL] at h2; subst h2
        exact ⟨[], t, [], a, rfl, by simp, by rw [RepL], h1⟩
      | cons _ _ => simp [RepL] at h2
  | cons j is ih =>
    cases ts with
    | nil => simp [RepL] at hr
    | cons t' ts =>
      rw [List.cons_append, RepL] at hr
      obtain ⟨a, b, rfl, h1, h2⟩ := hr
      obtain ⟨ts', t, a', b', rfl, rfl, h3, h4⟩ := ih h2
      refine ⟨t' :: ts', t, a ++ a', b', rfl, by simp, ?_, h4⟩
      rw [RepL]
      exact ⟨a, a', rfl, h1, h3⟩

theorem repL_length {h : Heap α} {o : Nat} {par : Option Nat} {is : List Nat} {ts : List (NTree α)} {ids : List Nat}
    (hr : RepL h o par is ts ids) : is.length = ts.length := by
  induction is generalizing ts ids with
  | nil => cases ts <;> simp [RepL] at hr ⊢
  | cons i is ih =>
    cases ts with
    | nil => simp [RepL] at hr
    | cons t ts =>
      rw [RepL] at hr
      obtain ⟨a, b, rfl, h1, h2⟩ := hr
      simp [ih h2]

theorem rep_ids_ne {h : Heap α} {o : Nat} {par : Option Nat} {i : Nat} {t : NTree α} {ids : List Nat}
    (hr : Rep h o par i t ids) : 1 ≤ ids.length := by
  cases t with
  | mk p ts =>
    rw [Rep] at hr
    obtain ⟨r, rest, rfl, _⟩ := hr
    simp

theorem nodup_length_le {l : List Nat} {n : Nat} (h1 : l.Nodup) (h2 : ∀ j ∈ l, j < n) : l.length ≤ n := by
  have := length_le_of_nodup_subset h1 (m := List.range n) (fun x hx => List.mem_range.2 (h2 x hx))
  simpa using this

/-- The inner loop collects a run of nodes down to one which hasn't exactly one child. -/
theorem walk_spec {h : Heap α} {o : Nat} : ∀ (f : Nat) (par : Option Nat) (n : Nat) (t : NTree α) (ids : List Nat) (seq : List α),
    Rep h o par n t ids → ids.length ≤ f →
    ∃ p ps cs ts last pre post, coarseWalk h f seq n = (seq ++ p :: ps, cs) ∧ chain (p :: ps) ts = [t] ∧
      RepL h o (some last) cs ts post ∧ ids = pre ++ post ∧ 1 ≤ pre.length ∧ cs.length ≠ 1 := by
  intro f
  induction f with
  | zero => intro par n t ids seq hr hl; have := rep_ids_ne hr; omega
  | succ f ih =>
    intro par n t ids seq hr hl
    cases t with
    | mk p ts =>
      rw [Rep] at hr
      obtain ⟨r, rest, rfl, h1, h2, h3, h4, h5⟩ := hr
      rw [coarseWalk, h1]
      simp only
      by_cases hc : ∃ c, r.children = [c]
      · obtain ⟨c, hc⟩ := hc
        rw [hc] at h5 ⊢
        cases ts with
        | nil => simp [RepL] at h5
        | cons t ts =>
          rw [RepL] at h5
          obtain ⟨a, b, rfl, h6, h7⟩ := h5
          cases ts with
          | cons _ _ => simp [RepL] at h7
          | nil =>
            rw [RepL] at h7; subst h7
            simp only [List.append_nil] at hl ⊢
            obtain ⟨p', ps, cs, ts, last, pre, post, e1, e2, e3, e4, e5, e6⟩ := ih (some n) c t a (seq ++ [r.props]) h6 (by simp at hl; omega)
            refine ⟨p, p' :: ps, cs, ts, last, n :: pre, post, ?_, ?_, e3, ?_, by simp, e6⟩
            · rw [e1, h2]; simp
            · rw [chain_cons, e2]
            · rw [e4]; rfl
      · refine ⟨p, [], r.children, ts, n, [n], rest, ?_, rfl, h5, rfl, by simp, ?_⟩
        · rw [← h2]
          split
          · rename_i c hc'; exact absurd ⟨c, hc'⟩ hc
          · rfl
        · intro hl
          exact hc (List.length_eq_one_iff.1 hl)

mutual
/-- The Coarse_game_tree object `g` has value `c`; `ids` are the objects it is made of. -/
def CRep (ch : CHeap α) (g : Nat) : Coarse α → List Nat → Prop
  | .mk s cs, ids => ∃ r rest, ids = g :: rest ∧ ch[g]? = some r ∧ r.sequence = s ∧ CRepL ch r.children cs rest
def CRepL (ch : CHeap α) : List Nat → List (Coarse α) → List Nat → Prop
  | [], [], ids => ids = []
  | i :: is, c :: cs, ids => ∃ a b, ids = a ++ b ∧ CRep ch i c a ∧ CRepL ch is cs b
  | _, _, _ => False
end

mutual
theorem crep_frame {h h' : CHeap α} {i : Nat} : ∀ {t : Coarse α} {ids : List Nat},
    (∀ j ∈ ids, h'[j]? = h[j]?) → CRep h i t ids → CRep h' i t ids
  | .mk p ts, ids, hf, hr => by
    rw [CRep] at hr ⊢
    obtain ⟨r, rest, rfl, h1, h2, h5⟩ := hr
    exact ⟨r, rest, rfl, by rw [hf i (by simp), h1], h2, crepL_frame (fun j hj => hf j (List.mem_cons_of_mem _ hj)) h5⟩
theorem crepL_frame {h h' : CHeap α} : ∀ {is : List Nat} {ts : List (Coarse α)} {ids : List Nat},
    (∀ j ∈ ids, h'[j]? = h[j]?) → CRepL h is ts ids → CRepL h' is ts ids
  | [], [], ids, _, hr => hr
  | i :: is, t :: ts, ids, hf, hr => by
    rw [CRepL] at hr ⊢
    obtain ⟨a, b, rfl, h1, h2⟩ := hr
    exact ⟨a, b, rfl, crep_frame (fun j hj => hf j (List.mem_append_left _ hj)) h1,
      crepL_frame (fun j hj => hf j (List.mem_append_right _ hj)) h2⟩
  | [], _ :: _, _, _, hr => by simp [CRepL] at hr
  | _ :: _, [], _, _, hr => by simp [CRepL] at hr
end

mutual
theorem crep_lt {h : CHeap α} {i : Nat} : ∀ {t : Coarse α} {ids : List Nat}, CRep h i t ids → ∀ j ∈ ids, j < h.length
  | .mk p ts, ids, hr => by
    rw [CRep] at hr
    obtain ⟨r, rest, rfl, h1, h2, h5⟩ := hr
    intro j hj
    rcases List.mem_cons.1 hj with rfl | hj
    · exact (List.getElem?_eq_some_iff.1 h1).1
    · exact crepL_lt h5 j hj
theorem crepL_lt {h : CHeap α} : ∀ {is : List Nat} {ts : List (Coarse α)} {ids : List Nat},
    CRepL h is ts ids → ∀ j ∈ ids, j < h.length
  | [], [], ids, hr => by rw [CRepL] at hr; subst hr; simp
  | i :: is, t :: ts, ids, hr => by
    rw [CRepL] at hr
    obtain ⟨a, b, rfl, h1, h2⟩ := hr
    intro j hj
    rcases List.mem_append.1 hj with hj | hj
    · exact crep_lt h1 j hj
    · exact crepL_lt h2 j hj
  | [], _ :: _, _, hr => by simp [CRepL] at hr
  | _ :: _, [], _, hr => by simp [CRepL] at hr
end

theorem crepL_snoc {h : CHeap α} {is : List Nat} {ts : List (Coarse α)} {a b : List Nat}
    {i : Nat} {t : Coarse α} (h1 : CRepL h is ts a) (h2 : CRep h i t b) :
    CRepL h (is ++ [i]) (ts ++ [t]) (a ++ b) := by
  induction is generalizing ts a with
  | nil =>
    cases ts with
    | nil =>
      rw [CRepL] at h1; subst h1
      simp only [List.nil_append]
      rw [CRepL]
      exact ⟨b, [], by simp, h2, by rw [CRepL]⟩
    | cons _ _ => simp [CRepL] at h1
  | cons j is ih =>
    cases ts with
    | nil => simp [CRepL] at h1
    | cons t' ts =>
      rw [CRepL] at h1
      obtain ⟨a1, a2, rfl, h3, h4⟩ := h1
      simp only [List.cons_append]
      rw [CRepL]
      exact ⟨a1, a2 ++ b, by simp, h3, ih h4⟩

mutual
theorem readCoarse_crep {ch : CHeap α} {i : Nat} : ∀ {c : Coarse α} {ids : List Nat} {fuel : Nat},
    CRep ch i c ids → ids.length ≤ fuel → readCoarse ch fuel i = c
  | .mk s cs, ids, fuel, hr, hf => by
    rw [CRep] at hr
    obtain ⟨r, rest, rfl, h1, h2, h5⟩ := hr
    cases fuel with
    | zero => simp at hf
    | succ fuel =>
      rw [readCoarse, h1]
      simp only
      rw [readCoarseL_crep h5 (by simpa using hf), h2]
theorem readCoarseL_crep {ch : CHeap α} : ∀ {is : List Nat} {cs : List (Coarse α)} {ids : List Nat} {fuel : Nat},
    CRepL ch is cs ids → ids.length ≤ fuel → is.map (readCoarse ch fuel) = cs
  | [], [], ids, fuel, _, _ => rfl
  | i :: is, c :: cs, ids, fuel, hr, hf => by
    rw [CRepL] at hr
    obtain ⟨a, b, rfl, h1, h2⟩ := hr
    rw [List.length_append] at hf
    rw [List.map_cons, readCoarse_crep h1 (by omega), readCoarseL_crep h2 (by omega)]
  | [], _ :: _, _, _, hr, _ => by simp [CRepL] at hr
  | _ :: _, [], _, _, hr, _ => by simp [CRepL] at hr
end

theorem coarseChildren_spec (g : Nat) (cs : List Nat) :
    ∀ (ch : CHeap α) (st : List (Nat × Nat)) (r : CRec α), ch[g]? = some r →
    ∃ (ch2 : CHeap α) (M : List (Nat × Nat)), coarseChildren g cs ch st = (ch2, M ++ st) ∧
      (M.map Prod.snd).reverse = cs ∧ (M.map Prod.fst).Nodup ∧
      (∀ x ∈ M, ch.length ≤ x.1 ∧ ch2[x.1]? = some ⟨[], []⟩) ∧
      ch2[g]? = some { r with children := r.children ++ (M.map Prod.fst).reverse } ∧
      (∀ j, j < ch.length → j ≠ g → ch2[j]? = ch[j]?) ∧ ch.length ≤ ch2.length := by
  induction cs with
  | nil => intro ch st r hr; exact ⟨ch, [], rfl, rfl, List.nodup_nil, by simp, by simpa using hr, by simp, Nat.le_refl _⟩
  | cons c cs ih =>
    intro ch st r hr
    have hlt := (List.getElem?_eq_some_iff.1 hr).1
    have g1 : ((ch ++ [(⟨[], []⟩ : CRec α)]).modify g (fun r => { r with children := r.children ++ [ch.length] })).length = ch.length + 1 := by simp
    have g2 : ((ch ++ [(⟨[], []⟩ : CRec α)]).modify g (fun r => { r with children := r.children ++ [ch.length] }))[g]? =
        some { r with children := r.children ++ [ch.length] } := by
      rw [List.getElem?_modify, List.getElem?_append_left hlt, hr]; simp
    have g3 : ((ch ++ [(⟨[], []⟩ : CRec α)]).modify g (fun r => { r with children := r.children ++ [ch.length] }))[ch.length]? = some ⟨[], []⟩ := by
      rw [List.getElem?_modify, List.getElem?_append_right (Nat.le_refl _)]
      have : ¬ g = ch.length := by omega
      simp [this]
    have g4 : ∀ j, j < ch.length → j ≠ g →
        ((ch ++ [(⟨[], []⟩ : CRec α)]).modify g (fun r => { r with children := r.children ++ [ch.length] }))[j]? = ch[j]? := by
      intro j hj hne
      rw [List.getElem?_modify, List.getElem?_append_left hj]
      have : ¬ g = j := fun e => hne e.symm
      simp [this]
    obtain ⟨ch2, M, e1, e2, e3, e4, e5, e6, e7⟩ := ih _ ((ch.length, c) :: st) _ g2
    rw [g1] at e4 e6 e7
    refine ⟨ch2, M ++ [(ch.length, c)], ?_, ?_, ?_, ?_, ?_, ?_, by omega⟩
    · rw [coarseChildren, e1]; simp
    · simp [e2]
    · rw [List.map_append, List.nodup_append]
      refine ⟨e3, by simp, ?_⟩
      intro a ha b hb hab
      simp only [List.map_cons, List.map_nil, List.mem_cons, List.not_mem_nil, or_false] at hb
      obtain ⟨x, hx, rfl⟩ := List.mem_map.1 ha
      have := (e4 x hx).1
      omega
    · intro x hx
      rcases List.mem_append.1 hx with hx | hx
      · obtain ⟨f1, f2⟩ := e4 x hx
        exact ⟨by omega, f2⟩
      · simp only [List.mem_cons, List.not_mem_nil, or_false] at hx
        subst hx
        refine ⟨Nat.le_refl _, ?_⟩
        rw [e6 ch.length (by omega) (by omega), g3]
    · rw [e5]; simp
    · intro j hj hne
      rw [e6 j (by omega) hne, g4 j hj hne]

/-- No coarse tree has exactly one child: runs of nodes are as long as possible. -/
inductive Coarse.Canonical : Coarse α → Prop
  | mk {p : α} {s : List α} {cs : List (Coarse α)} : cs.length ≠ 1 → (∀ c ∈ cs, c.Canonical) → Canonical (.mk (p :: s) cs)

theorem Coarse.Canonical.nonempty {c : Coarse α} (h : c.Canonical) : c.Nonempty := by
  induction h with
  | mk _ _ ih => exact .mk ih

structure Coarsened (ch ch' : CHeap α) (g : Nat) (c : Coarse α) (cids : List Nat) : Prop where
  rep : CRep ch' g c cids
  nodup : cids.Nodup
  ids : ∀ j ∈ cids, j = g ∨ ch.length ≤ j
  frame : ∀ j, j < ch.length → j ≠ g → ch'[j]? = ch[j]?
  len : ch.length ≤ ch'.length

def CoarsensEntry (h : Heap α) (o : Nat) (m : Nat) : Prop :=
  ∀ (par : Option Nat) (n : Nat) (t : NTree α) (ids : List Nat), Rep h o par n t ids → ids.Nodup → ids.length ≤ m →
  ∀ (ch : CHeap α) (g : Nat) (st : List (Nat × Nat)), ch[g]? = some ⟨[], []⟩ →
  ∃ k ch' c cids, k ≤ ids.length ∧
    (∀ fuel, makeCoarseLoop h (k + fuel) ch ((g, n) :: st) = makeCoarseLoop h fuel ch' st) ∧
    c.nodes = [t] ∧ c.Canonical ∧ Coarsened ch ch' g c cids

theorem coarsens_list {h : Heap α} {o m : Nat} (hm : CoarsensEntry h o m) (par : Option Nat) (st : List (Nat × Nat)) :
    ∀ (M : List (Nat × Nat)) (ts : List (NTree α)) (ids : List Nat), RepL h o par (M.map Prod.snd).reverse ts ids →
    ids.Nodup → ids.length ≤ m → (M.map Prod.fst).Nodup → ∀ (ch : CHeap α), (∀ x ∈ M, ch[x.1]? = some ⟨[], []⟩) →
    ∃ k ch' cs cids, k ≤ ids.length ∧
      (∀ fuel, makeCoarseLoop h (k + fuel) ch (M ++ st) = makeCoarseLoop h fuel ch' st) ∧
      nodesL cs = ts ∧ (∀ c ∈ cs, c.Canonical) ∧ CRepL ch' (M.map Prod.fst).reverse cs cids ∧ cids.Nodup ∧
      (∀ j ∈ cids, j ∈ M.map Prod.fst ∨ ch.length ≤ j) ∧
      (∀ j, j < ch.length → j ∉ M.map Prod.fst → ch'[j]? = ch[j]?) ∧ ch.length ≤ ch'.length := by
  intro M
  induction M with
  | nil =>
    intro ts ids hr _ _ _ ch _
    cases ts with
    | cons _ _ => simp [RepL] at hr
    | nil =>
      exact ⟨0, ch, [], [], Nat.zero_le _, by simp, rfl, by simp, by simp [CRepL], List.nodup_nil, by simp, by simp, Nat.le_refl _⟩
  | cons x M ih =>
    intro ts ids hr hnd hle hMnd ch hfr
    obtain ⟨i, n⟩ := x
    rw [List.map_cons, List.reverse_cons] at hr
    obtain ⟨ts', t, a, b, rfl, rfl, hr1, hr2⟩ := repL_snoc_inv hr
    rw [List.nodup_append] at hnd
    rw [List.length_append] at hle
    rw [List.map_cons, List.nodup_cons] at hMnd
    obtain ⟨k1, ch1, c, cids1, e0, e1, e2, e3, e4⟩ := hm par n t b hr2 hnd.2.1 (by omega) ch i (M ++ st) (hfr (i, n) (by simp))
    obtain ⟨k2, ch2, cs, cids2, f0, f1, f2, f3, f4, f5, f6, f7, f8⟩ := ih ts' a hr1 hnd.1 (by omega) hMnd.2 ch1 (by
      intro x hx
      have hx' := hfr x (List.mem_cons_of_mem _ hx)
      rw [e4.frame x.1 (List.getElem?_eq_some_iff.1 hx').1, hx']
      rintro he
      have hmem : x.1 ∈ M.map Prod.fst := List.mem_map_of_mem hx
      rw [he] at hmem
      exact hMnd.1 hmem)
    have key : ∀ j ∈ cids1, j ∉ M.map Prod.fst := by
      intro j hj hm
      rcases e4.ids j hj with rfl | hge
      · exact hMnd.1 hm
      · obtain ⟨x, hx, rfl⟩ := List.mem_map.1 hm
        have := (List.getElem?_eq_some_iff.1 (hfr x (List.mem_cons_of_mem _ hx))).1
        omega
    have hrep : CRep ch2 i c cids1 := crep_frame (fun j hj => f7 j (crep_lt e4.rep j hj) (key j hj)) e4.rep
    refine ⟨k1 + k2, ch2, cs ++ [c], cids2 ++ cids1, ?_, ?_, ?_, ?_, ?_, ?_, ?_, ?_, ?_⟩
    · rw [List.length_append]; omega
    · intro fuel
      rw [List.cons_append, Nat.add_assoc, e1, f1]
    · rw [nodesL_append, f2, nodesL, e2, nodesL, List.append_nil]
    · intro c' hc'
      rcases List.mem_append.1 hc' with h | h
      · exact f3 c' h
      · simp only [List.mem_cons, List.not_mem_nil, or_false] at h
        subst h; exact e3
    · rw [List.map_cons, List.reverse_cons]
      exact crepL_snoc f4 hrep
    · rw [List.nodup_append]
      refine ⟨f5, e4.nodup, ?_⟩
      intro a ha b hb hab
      subst hab
      have hb' := crep_lt e4.rep a hb
      rcases f6 a ha with h | h
      · exact key a hb h
      · omega
    · intro j hj
      rcases List.mem_append.1 hj with hj | hj
      · rcases f6 j hj with h | h
        · exact Or.inl (by rw [List.map_cons]; exact List.mem_cons_of_mem _ h)
        · exact Or.inr (Nat.le_trans e4.len h)
      · rcases e4.ids j hj with rfl | h
        · exact Or.inl (by simp)
        · exact Or.inr h
    · intro j hj hjm
      rw [List.map_cons, List.mem_cons, not_or] at hjm
      rw [f7 j (Nat.lt_of_lt_of_le hj e4.len) hjm.2, e4.frame j hj hjm.1]
    · exact Nat.le_trans e4.len f8

theorem nodes_singleton {c : Coarse α} (h : c.Nonempty) : ∃ t, c.nodes = [t] := by
  cases h with
  | mk _ => exact ⟨_, by rw [Coarse.nodes, chain_cons]⟩

theorem nodesL_length {cs : List (Coarse α)} (h : ∀ c ∈ cs, c.Nonempty) : (nodesL cs).length = cs.length := by
  induction cs with
  | nil => rfl
  | cons c cs ih =>
    obtain ⟨t, ht⟩ := nodes_singleton (h c (by simp))
    rw [nodesL, ht, List.length_append, ih (fun c hc => h c (List.mem_cons_of_mem _ hc))]
    simp; omega

theorem coarsensEntry (h : Heap α) (o : Nat) (m : Nat) : CoarsensEntry h o m := by
  induction m using Nat.strongRecOn with
  | _ m ih =>
    intro par n t ids hr hnd hle ch g st hg
    have hlen : ids.length ≤ h.length := nodup_length_le hnd (rep_lt hr)
    have hglt := (List.getElem?_eq_some_iff.1 hg).1
    obtain ⟨p, ps, ns, ts, last, pre, post, e1, e2, e3, rfl, e5, e6⟩ := walk_spec h.length par n t ids [] hr hlen
    rw [List.nil_append] at e1
    have hg1 : (ch.modify g (fun r => { r with sequence := r.sequence ++ (p :: ps) }))[g]? = some ⟨p :: ps, []⟩ := by
      rw [List.getElem?_modify, hg]; simp
    obtain ⟨ch2, M, c1, c2, c3, c4, c5, c6, c7⟩ := coarseChildren_spec g ns _ st _ hg1
    rw [List.length_modify] at c4 c6 c7
    simp only [List.nil_append] at c5
    rw [List.nodup_append] at hnd
    rw [List.length_append] at hle
    obtain ⟨k, ch', cs, cids, f0, f1, f2, f3, f4, f5, f6, f7, f8⟩ := coarsens_list (ih (m - 1) (by omega)) (some last) st M ts post
      (by rw [c2]; exact e3) hnd.2.1 (by omega) c3 ch2 (fun x hx => (c4 x hx).2)
    have hMge : ∀ j ∈ M.map Prod.fst, ch.length ≤ j := by
      intro j hj
      obtain ⟨x, hx, rfl⟩ := List.mem_map.1 hj
      exact (c4 x hx).1
    have hids : ∀ j ∈ cids, ch.length ≤ j := by
      intro j hj
      rcases f6 j hj with h | h
      · exact hMge j h
      · omega
    refine ⟨k + 1, ch', .mk (p :: ps) cs, g :: cids, by rw [List.length_append]; omega, ?_, ?_, ?_, ?_⟩
    · intro fuel
      have : k + 1 + fuel = k + fuel + 1 := by omega
      rw [this, makeCoarseLoop]
      simp only [e1]
      rw [c1]
      exact f1 fuel
    · rw [Coarse.nodes, f2, e2]
    · refine .mk ?_ f3
      rw [← nodesL_length (fun c hc => (f3 c hc).nonempty), f2, ← repL_length e3]
      exact e6
    · refine ⟨?_, List.nodup_cons.2 ⟨fun hm => by have := hids g hm; omega, f5⟩, ?_, ?_, by omega⟩
      · rw [CRep]
        refine ⟨⟨p :: ps, (M.map Prod.fst).reverse⟩, cids, rfl, ?_, rfl, f4⟩
        rw [f7 g (by omega) (fun hm => by have := hMge g hm; omega), c5]
      · intro j hj
        rcases List.mem_cons.1 hj with rfl | hj
        · exact Or.inl rfl
        · exact Or.inr (hids j hj)
      · intro j hj hne
        rw [f7 j (by omega) (fun hm => by have := hMge j hm; omega), c6 j hj hne, List.getElem?_modify]
        have : ¬ g = j := fun e => hne e.symm
        simp [this]

theorem makeCoarseLoop_nil (h : Heap α) (fuel : Nat) (ch : CHeap α) : makeCoarseLoop h fuel ch [] = ch := by
  cases fuel <;> rfl

/-- `make_coarse_game_tree` gives a coarse tree which stands for the nodes. -/
theorem makeCoarse_spec {h : Heap α} {o : Nat} {par : Option Nat} {root : Nat} {t : NTree α} {ids : List Nat}
    (hr : Rep h o par root t ids) (hnd : ids.Nodup) : (makeCoarse h root).nodes = [t] ∧ (makeCoarse h root).Canonical := by
  have hlen : ids.length ≤ h.length := nodup_length_le hnd (rep_lt hr)
  obtain ⟨k, ch', c, cids, e0, e1, e2, e3, e4⟩ := coarsensEntry h o ids.length par root t ids hr hnd (Nat.le_refl _)
    [⟨[], []⟩] 0 [] rfl
  have hcl : cids.length ≤ ch'.length := nodup_length_le e4.nodup (crep_lt e4.rep)
  have : makeCoarse h root = c := by
    unfold makeCoarse
    have hk : h.length + 1 = k + (h.length + 1 - k) := by omega
    simp only
    rw [hk, e1, makeCoarseLoop_nil]
    exact readCoarse_crep e4.rep (by omega)
  rw [this]
  exact ⟨e2, e3⟩

theorem chain_inj {ps qs : List α} {ts us : List (NTree α)} (h : chain ps ts = chain qs us) (h1 : ts.length ≠ 1) (h2 : us.length ≠ 1) :
    ps = qs ∧ ts = us := by
  induction ps generalizing qs with
  | nil =>
    cases qs with
    | nil => exact ⟨rfl, h⟩
    | cons q qs =>
      have h' : ts = [NTree.mk q (chain qs us)] := h
      rw [h'] at h1; simp at h1
  | cons p ps ih =>
    cases qs with
    | nil =>
      have h' : [NTree.mk p (chain ps ts)] = us := h
      rw [← h'] at h2; simp at h2
    | cons q qs =>
      rw [chain_cons, chain_cons] at h
      simp only [List.cons.injEq, NTree.mk.injEq, and_true] at h
      have := ih h.2
      exact ⟨by rw [h.1, this.1], this.2⟩

/-- Canonical coarse trees are determined by the nodes they stand for. -/
theorem canonical_unique {c : Coarse α} (hc : c.Canonical) : ∀ {d : Coarse α}, d.Canonical → c.nodes = d.nodes → c = d := by
  induction hc with
  | @mk p s cs h1 h2 ih =>
    intro d hd he
    cases hd with
    | @mk q s' ds h3 h4 =>
      rw [Coarse.nodes, Coarse.nodes] at he
      have l1 := nodesL_length (fun c hc => (h2 c hc).nonempty)
      have l2 := nodesL_length (fun c hc => (h4 c hc).nonempty)
      obtain ⟨e1, e2⟩ := chain_inj he (by omega) (by omega)
      rw [e1]
      congr 1
      clear h1 h3 he e1
      induction cs generalizing ds with
      | nil =>
        cases ds with
        | nil => rfl
        | cons d ds => rw [e2] at l1; simp [l1] at l2
      | cons c cs ihl =>
        cases ds with
        | nil => rw [← e2] at l2; simp [l2] at l1
        | cons d ds =>
          obtain ⟨t, ht⟩ := nodes_singleton (h2 c (by simp)).nonempty
          obtain ⟨u, hu⟩ := nodes_singleton (h4 d (by simp)).nonempty
          rw [nodesL, nodesL, ht, hu] at e2
          simp only [List.cons_append, List.nil_append, List.cons.injEq] at e2
          have : c = d := ih c (by simp) (h4 d (by simp)) (by rw [ht, hu, e2.1])
          rw [this, ihl (fun c hc => h2 c (List.mem_cons_of_mem _ hc)) (fun c hc => ih c (List.mem_cons_of_mem _ hc))
            (fun c hc => h4 c (List.mem_cons_of_mem _ hc))
            (nodesL_length (fun c hc => (h2 c (List.mem_cons_of_mem _ hc)).nonempty))
            (nodesL_length (fun c hc => (h4 c (List.mem_cons_of_mem _ hc)).nonempty)) e2.2]

/-! ### Main sequence -/

theorem mainSequence_leftmost {c : Coarse α} (hc : c.Nonempty) : ∀ {t : NTree α}, c.nodes = [t] → mainSequenceIter c = t.leftmost := by
  induction hc with
  | @mk p s cs h ih =>
    intro t ht
    rw [Coarse.nodes] at ht
    induction s generalizing p t with
    | nil =>
      rw [chain_cons] at ht
      simp only [List.cons.injEq, and_true] at ht
      subst ht
      cases cs with
      | nil => rfl
      | cons c cs =>
        obtain ⟨u, hu⟩ := nodes_singleton (h c (by simp))
        rw [mainSequenceIter]
        simp only [chain, List.foldr_nil, nodesL, hu, List.cons_append, List.nil_append]
        rw [NTree.leftmost, ih c (by simp) hu]
    | cons q s ihs =>
      rw [chain_cons] at ht
      simp only [List.cons.injEq, and_true] at ht
      subst ht
      obtain ⟨u, hu⟩ : ∃ u, chain (q :: s) (nodesL cs) = [u] := ⟨_, chain_cons _ _ _⟩
      rw [hu, NTree.leftmost, ← ihs hu]
      cases cs <;> rfl

end Gomill.Sgf
