import Verif.Lemmas.MctsReports
/-
C86: the MCTS tuner's reports.
-/
namespace Gomill.Mcts
open Py MctsSpec

variable {ε : Type}

/-- What the texts depend on: the shape of the tree, and its statistics. -/
structure Stats (c : Config) (root : Node) (sims : List (List Nat × Bool)) : Prop where
  ok : c.Ok
  uniform : Uniform (branchingFactor c.splits) root
  expanded : root.arity = some (branchingFactor c.splits)
  stats : ∀ p n, root.get p = some n → n.visits = c.initialVisits + through p sims ∧ n.wins = c.initialWins + wonThrough p sims

theorem Stats.lt {c : Config} {root : Node} {sims : List (List Nat × Bool)} (h : Stats c root sims) {p : List Nat} (hp : NodeOf root p) : ∀ i ∈ p, i < product c.splits := by
  rw [← branchingFactor_eq]; exact get_lt h.uniform hp

theorem visits_text {c : Config} {root : Node} {sims : List (List Nat × Bool)} (h : Stats c root sims) {p : List Nat} {n : Node} (hn : root.get p = some n) :
    visitsText c n = Tab.rjust (strInt (through p sims)) 3 ∧ n.value = rate c p sims := by
  obtain ⟨h1, h2⟩ := h.stats p n hn
  unfold visitsText Node.value rate
  rw [h1, h2]
  refine ⟨?_, rfl⟩
  congr 2
  omega

theorem summariseNode_spec (S : Show ε) {c : Config} {root : Node} {sims : List (List Nat × Bool)} (h : Stats c root sims) {p : List Nat} {n : Node} (hn : root.get p = some n) :
    (∀ s, summariseNode S c p n = .ok s → SummaryLine S c sims p s) ∧ (∀ e, summariseNode S c p n = .error e → FormatFails S c root e) := by
  have hnode : NodeOf root p := by unfold NodeOf; rw [hn]; rfl
  obtain ⟨ps, h1, h2⟩ := formatPath_spec h.ok.splits S (h.lt hnode)
  obtain ⟨coords, h3, h4⟩ := choices_ok (ε := ε) h.ok.splits (h.lt hnode)
  obtain ⟨h5, h6⟩ := visits_text h hn
  unfold summariseNode
  rcases h2 with ⟨s, ha, hb⟩ | ⟨e, ha, hb⟩
  · rw [hb, h4, h5, h6]
    refine ⟨fun t ht => ?_, fun e he => (by simp only at he; cases he)⟩
    simp only at ht
    injection ht with ht
    exact ⟨ps, s, coords, h1, ha, h3, ht.symm⟩
  · rw [hb]
    refine ⟨fun t ht => (by simp only at ht; cases ht), fun e' he => ?_⟩
    simp only at he
    injection he with he
    exact ⟨p, ps, e, hnode, h1, ha, he.symm⟩

theorem describeSimulation_spec (S : Show ε) {c : Config} {root : Node} {sims : List (List Nat × Bool)} (h : Stats c root sims) {p : List Nat} (hp : NodeOf root p) (won : Option Bool) :
    (∀ s, describeSimulation S c p won = .ok s → ∃ t, SimText S c p t ∧ s = t ++ wonText won) ∧ (∀ e, describeSimulation S c p won = .error e → FormatFails S c root e) := by
  obtain ⟨ps, h1, h2⟩ := formatPath_spec h.ok.splits S (h.lt hp)
  obtain ⟨coords, h3, h4⟩ := choices_ok (ε := ε) h.ok.splits (h.lt hp)
  unfold describeSimulation
  rcases h2 with ⟨s, ha, hb⟩ | ⟨e, ha, hb⟩
  · rw [hb, h4]
    refine ⟨fun t ht => ?_, fun e he => (by simp only at he; cases he)⟩
    simp only at ht
    injection ht with ht
    exact ⟨_, ⟨ps, s, coords, h1, ha, h3, rfl⟩, ht.symm⟩
  · rw [hb]
    refine ⟨fun t ht => (by simp only at ht; cases ht), fun e' he => ?_⟩
    simp only at he
    injection he with he
    exact ⟨p, ps, e, hp, h1, ha, he.symm⟩

theorem forall2_fst {R : List Nat → Str → Prop} {l : List (List Nat × Node)} {s : List Str} (h : List.Forall₂ (fun x t => R x.1 t) l s) : List.Forall₂ R (l.map Prod.fst) s := by
  induction h with
  | nil => exact .nil
  | cons h _ ih => exact .cons h ih

theorem summariseLoop_spec (S : Show ε) {c : Config} {root : Node} {sims : List (List Nat × Bool)} (h : Stats c root sims) : ∀ (spec : List Int) (d : Nat) (last : List (List Nat × Node)),
    Generation root d last →
    (∀ lines, summariseLoop S c (d + 1) last spec = .ok lines → ∃ sections,
      List.Forall₂ (fun (x : Int × Nat) l => SummarySection S c sims (NodeOf root) (x.2 + 1) x.1 l) (spec.zipIdx d) sections ∧ lines = sections.flatten) ∧
    (∀ e, summariseLoop S c (d + 1) last spec = .error e → FormatFails S c root e)
  | [], d, last, _ => ⟨fun lines hl => ⟨[], .nil, by injection hl with hl; exact hl.symm⟩, fun e he => by cases he⟩
  | n :: spec, d, last, hg => by
    have hnext := generation_next hg
    obtain ⟨i1, i2⟩ := summariseLoop_spec S h spec (d + 1) _ hnext
    obtain ⟨g1, g2, g3, g4, g5⟩ := shown_spec hnext n
    unfold summariseLoop
    simp only
    generalize hs : sortBy (fun a b : List Nat × Node => pathLe a.1 b.1) (nlargest n (nextGeneration last)) = shown at g1 g2 g3 g4 g5
    obtain ⟨e1, e2⟩ := eachLine_spec (l := shown) (f := fun x : List Nat × Node => summariseNode S c x.1 x.2) (P := fun x s => SummaryLine S c sims x.1 s) (E := FormatFails S c root)
      (fun x hx => summariseNode_spec S h ((hnext.mem x).1 (g2 x hx)).2)
    cases he : eachLine (fun x : List Nat × Node => summariseNode S c x.1 x.2) shown with
    | error e => exact ⟨fun l hl => (by simp only at hl; cases hl), fun e' he' => by simp only at he'; injection he' with he'; rw [← he']; exact e2 e he⟩
    | ok lines =>
      simp only
      cases hr : summariseLoop S c (d + 1 + 1) (nextGeneration last) spec with
      | error e => exact ⟨fun l hl => (by simp only at hl; cases hl), fun e' he' => by simp only at he'; injection he' with he'; rw [← he']; exact i2 e hr⟩
      | ok rest =>
        refine ⟨fun l hl => ?_, fun e' he' => (by simp only at he'; cases he')⟩
        simp only at hl
        injection hl with hl
        obtain ⟨sections, hsec, hflat⟩ := i1 rest hr
        refine ⟨(("most visited at depth ".toList ++ strInt (d + 1 : Nat)) :: lines ++ [[]]) :: sections, ?_, ?_⟩
        · rw [List.zipIdx_cons]
          refine .cons ?_ hsec
          have hval : ∀ q, NodeOf root q → q.length = d + 1 → ∃ y ∈ nextGeneration last, y.1 = q := by
            intro q hq hl
            obtain ⟨m, hm⟩ := Option.isSome_iff_exists.1 hq
            exact ⟨(q, m), (hnext.mem _).2 ⟨hl, hm⟩, rfl⟩
          refine ⟨shown.map Prod.fst, lines, g1, ?_, by rw [List.length_map]; exact g3, ?_, ?_, forall2_fst (e1 lines he), rfl⟩
          · intro p hp
            obtain ⟨x, hx, rfl⟩ := List.mem_map.1 hp
            obtain ⟨k1, k2⟩ := (hnext.mem x).1 (g2 x hx)
            refine ⟨?_, k1⟩
            unfold NodeOf; rw [k2]; rfl
          · intro hlt q hq hl
            rw [List.length_map] at hlt
            obtain ⟨y, hy, rfl⟩ := hval q hq hl
            exact List.mem_map_of_mem (g4 hlt y hy)
          · intro p hp q hq hl hnq
            obtain ⟨x, hx, rfl⟩ := List.mem_map.1 hp
            obtain ⟨y, hy, rfl⟩ := hval q hq hl
            have hny : y ∉ shown := fun hc => hnq (List.mem_map_of_mem hc)
            have v1 := (h.stats _ _ ((hnext.mem x).1 (g2 x hx)).2).1
            have v2 := (h.stats _ _ ((hnext.mem y).1 hy).2).1
            rcases g5 x hx y hy hny with g | ⟨g, g'⟩
            · exact .inl (by omega)
            · exact .inr ⟨by omega, g'⟩
        · rw [List.flatten_cons, ← hflat, ← hl]

/-! ### The tuner -/

variable {α : Type} [DecidableEq α]

theorem stats_of {c : Config} (h : c.Ok) (limit : Option Int) (scaled0 : α) (ops : List TOp) :
    Stats c (Sys.run c limit scaled0 ops).tuner.root (completed (Sys.run c limit scaled0 ops).log) := by
  have hi := (run_inv h limit scaled0 ops).tree
  exact ⟨h, hi.uniform, hi.expanded, hi.stats⟩

theorem best_spec {c : Config} (h : c.Ok) (limit : Option Int) (scaled0 : α) (ops : List TOp) :
    BestPath c (completed (Sys.run c limit scaled0 ops).log) (NodeOf (Sys.run c limit scaled0 ops).tuner.root) (bestPath (Sys.run c limit scaled0 ops).tuner.root) := by
  obtain ⟨⟨w, v, h1⟩, h2⟩ := C43_best h limit scaled0 ops
  have hi := stats_of h limit scaled0 ops
  generalize Sys.run c limit scaled0 ops = s at *
  refine ⟨by unfold NodeOf; rw [h1]; rfl, ?_, ?_⟩
  · intro i hn
    unfold NodeOf at hn
    rw [get_leaf_append h1 i] at hn
    cases hn
  · intro q i hq j hj
    obtain ⟨cs, w', v', hg, m, hm, a1, a2⟩ := h2 q i hq
    have hlen : cs.length = product c.splits := by
      rw [← branchingFactor_eq]; exact hi.uniform q _ hg _ rfl
    have hjl : j < cs.length := by omega
    have get : ∀ k m', cs[k]? = some m' → s.tuner.root.get (q ++ [k]) = some m' := by
      intro k m' hk
      rw [get_append, hg]
      simp only [Option.bind_some, Node.get, hk]
    have e1 := (hi.stats _ _ (get i m hm)).2
    have e2 := (hi.stats _ _ (get j cs[j] (List.getElem?_eq_getElem hjl))).2
    have l1 := a1 cs[j] (List.getElem_mem hjl)
    refine ⟨by omega, fun hji => ?_⟩
    have := a2 j cs[j] hji (List.getElem?_eq_getElem hjl)
    omega

theorem gamesLine_eq (n : Nat) (k : Option Int) : gamesLine n k = strInt n ++ ((k.map (fun k => '/' :: strInt k)).getD []) ++ " games played".toList := by
  unfold gamesLine
  cases k with
  | none => show _ = strInt n ++ [] ++ _; rw [List.append_nil]
  | some k =>
    show strInt n ++ ['/'] ++ strInt k ++ _ = strInt n ++ ('/' :: strInt k) ++ _
    rw [List.append_assoc (strInt n)]; rfl

/-- C86: the main part of the report. After any history of games, failures, saves and restarts, it's made unless the function which formats parameters fails; it says how many games were
played, which are the best parameters, and which nodes were visited most at the depths asked for. -/
theorem C86_main (S : Show ε) {c : Config} (h : c.Ok) (limit : Option Int) (scaled0 : α) (ops : List TOp) (spec : List Int) :
    (∀ lines, mainReport S c limit spec (Sys.run c limit scaled0 ops).tuner = .ok lines →
      MainReport S c limit spec (Sys.run c limit scaled0 ops).log (NodeOf (Sys.run c limit scaled0 ops).tuner.root) lines) ∧
    (∀ e, mainReport S c limit spec (Sys.run c limit scaled0 ops).tuner = .error e → FormatFails S c (Sys.run c limit scaled0 ops).tuner.root e) := by
  have hb := best_spec h limit scaled0 ops
  have hi := stats_of h limit scaled0 ops
  have hf := (C43_number_of_games h limit scaled0 ops).1
  generalize Sys.run c limit scaled0 ops = s at *
  obtain ⟨b1, b2⟩ := describeSimulation_spec S hi hb.node none
  obtain ⟨l1, l2⟩ := summariseLoop_spec S hi spec 0 _ (generation_zero s.tuner.root)
  unfold mainReport
  cases hd : describeSimulation S c (bestPath s.tuner.root) none with
  | error e => exact ⟨fun l hl => (by simp only at hl; cases hl), fun e' he' => by simp only at he'; injection he' with he'; rw [← he']; exact b2 e hd⟩
  | ok best =>
    simp only
    cases hs : summarise S c s.tuner.root spec with
    | error e => exact ⟨fun l hl => (by simp only at hl; cases hl), fun e' he' => by simp only at he'; injection he' with he'; rw [← he']; exact l2 e hs⟩
    | ok summary =>
      refine ⟨fun l hl => ?_, fun e' he' => (by simp only at he'; cases he')⟩
      simp only at hl
      injection hl with hl
      obtain ⟨t, ht, hbt⟩ := b1 best hd
      have hbt : best = t := by rw [hbt]; exact List.append_nil _
      obtain ⟨sections, q1, q2⟩ := l1 summary hs
      refine ⟨_, best, sections, hb, by rw [hbt]; exact ht, q1, ?_⟩
      rw [← hl, ← q2, hf, gamesLine_eq]

/-- C86: if the function which formats parameters always works, the report is always made. -/
theorem C86_total (S : Show ε) (hS : ∀ ps, ∃ s, S.params ps = .ok s) {c : Config} (h : c.Ok) (limit : Option Int) (scaled0 : α) (ops : List TOp) (spec : List Int) :
    ∃ lines, mainReport S c limit spec (Sys.run c limit scaled0 ops).tuner = .ok lines := by
  obtain ⟨_, h2⟩ := C86_main S h limit scaled0 ops spec
  cases hr : mainReport S c limit spec (Sys.run c limit scaled0 ops).tuner with
  | ok lines => exact ⟨lines, rfl⟩
  | error e =>
    obtain ⟨_, ps, _, _, _, h4, _⟩ := h2 e hr
    obtain ⟨s, hs⟩ := hS ps
    rw [hs] at h4; cases h4

/-! ### Games in progress -/

theorem keys_nodup {c : Config} (limit : Option Int) (scaled0 : α) (ops : List TOp) : ((Sys.run c limit scaled0 ops).tuner.outstanding.map Prod.fst).Nodup := by
  have filt : ∀ (l : List (Nat × List Nat)) (n : Nat), (l.map Prod.fst).Nodup → ((l.filter (fun p => p.1 ≠ n)).map Prod.fst).Nodup := by
    intro l n hl
    exact hl.sublist (List.Sublist.map _ List.filter_sublist)
  have key : ∀ (s : Sys α) (op : TOp), (s.tuner.outstanding.map Prod.fst).Nodup → ((s.step c limit scaled0 op).tuner.outstanding.map Prod.fst).Nodup := by
    intro s op hs
    cases op with
    | getGame starts makeOk =>
      have hg : ((s.tuner.getGame c limit starts makeOk).2.outstanding.map Prod.fst).Nodup := by
        have hplay : ((Tuner.getGame.play c starts makeOk s.tuner).2.outstanding.map Prod.fst).Nodup := by
          unfold Tuner.getGame.play
          simp only
          split
          · exact hs
          · split
            · simp only [List.map_append, List.map_cons, List.map_nil]
              rw [List.nodup_append]
              refine ⟨filt _ _ hs, List.nodup_singleton _, ?_⟩
              intro a ha b hb
              obtain ⟨x, hx, rfl⟩ := List.mem_map.1 ha
              have := (List.mem_filter.1 hx).2
              rw [List.mem_singleton] at hb
              rw [hb]; simpa using this
            · exact hs
        unfold Tuner.getGame
        split
        · split
          · exact hs
          · exact hplay
        · exact hplay
      simp only [Sys.step]
      split
      · rename_i heq; rw [heq] at hg; exact hg
      · rename_i heq; rw [heq] at hg; exact hg
    | result n won =>
      have hg : ((s.tuner.processResult n won).2.outstanding.map Prod.fst).Nodup := by
        unfold Tuner.processResult
        simp only
        split
        · exact hs
        · split
          · exact hs
          · exact filt _ _ hs
      simp only [Sys.step]
      split
      · exact hs
      · split
        · rename_i heq; rw [heq] at hg; exact hg
        · rename_i heq; rw [heq] at hg; exact hg
    | error n =>
      have hg : ((s.tuner.processError n).2.outstanding.map Prod.fst).Nodup := by
        unfold Tuner.processError
        split
        · exact hs
        · simp only
          split
          · exact filt _ _ hs
          · exact filt _ _ hs
      simp only [Sys.step]
      split
      · exact hs
      · split
        · rename_i heq; rw [heq] at hg; exact hg
        · rename_i heq; rw [heq] at hg; exact hg
    | save => exact hs
    | restart =>
      simp only [Sys.step]
      split
      · rename_i t ht
        unfold Tuner.load at ht
        split at ht
        · cases ht
        · split at ht
          · cases ht
          · split at ht
            · cases ht
            · injection ht with ht
              rw [← ht]; exact List.nodup_nil
      · exact hs
  unfold Sys.run
  have : ∀ (ops : List TOp) (s : Sys α), (s.tuner.outstanding.map Prod.fst).Nodup → ((ops.foldl (Sys.step c limit scaled0) s).tuner.outstanding.map Prod.fst).Nodup := by
    intro ops
    induction ops with
    | nil => intro s hs; exact hs
    | cons op ops ih => intro s hs; exact ih _ (key s op hs)
  exact this ops _ List.nodup_nil

theorem inProgress {c : Config} (h : c.Ok) (limit : Option Int) (scaled0 : α) (ops : List TOp) :
    InProgress (Sys.run c limit scaled0 ops).log (sortBy (fun a b => decide (a.1 ≤ b.1)) (Sys.run c limit scaled0 ops).tuner.outstanding) := by
  have hn := keys_nodup (c := c) limit scaled0 ops
  have ho := (run_inv h limit scaled0 ops).out
  generalize Sys.run c limit scaled0 ops = s at *
  refine ⟨?_, ?_⟩
  · refine sortBy_pairwise _ (fun a b : Nat × List Nat => a.1 < b.1) (fun a b : Nat × List Nat => a.1 ≠ b.1) (fun a b c => Nat.lt_trans) ?_ ?_ _ ?_
    · intro a b hne hle
      have : a.1 ≤ b.1 := by simpa using hle
      omega
    · intro a b hne hle
      have : ¬ a.1 ≤ b.1 := by simpa using hle
      omega
    · unfold List.Nodup at hn
      rwa [List.pairwise_map] at hn
  · intro n p
    rw [(sortBy_perm _ _).mem_iff, ← ho n]
    generalize s.tuner.outstanding = l at hn
    clear ho
    induction l with
    | nil =>
      constructor
      · intro h; cases h
      · intro h; cases h
    | cons x l ih =>
      obtain ⟨k, q⟩ := x
      rw [List.map_cons, List.nodup_cons] at hn
      rw [List.lookup_cons, List.mem_cons]
      by_cases hk : n = k
      · subst hk
        simp only [beq_self_eq_true]
        constructor
        · rintro (h | h)
          · injection h with _ h; rw [h]
          · exact absurd (List.mem_map_of_mem (f := Prod.fst) h) hn.1
        · intro h; injection h with h; rw [h]; exact .inl rfl
      · have hb : (n == k) = false := by simpa using hk
        rw [hb]
        simp only
        rw [← ih hn.2]
        constructor
        · rintro (h | h)
          · injection h with h _; exact absurd h hk
          · exact h
        · exact .inr

/-- C86: the screen report: after the main report, the games in progress, in order of number, as many as the control file says (a negative number says how many of the last ones not to
show). -/
theorem C86_screen (S : Show ε) {c : Config} (h : c.Ok) (limit : Option Int) (scaled0 : α) (ops : List TOp) (spec : List Int) (toShow : Int) :
    (∀ lines, screenReport S c limit spec toShow (Sys.run c limit scaled0 ops).tuner = .ok lines →
      ∃ main games, MainReport S c limit spec (Sys.run c limit scaled0 ops).log (NodeOf (Sys.run c limit scaled0 ops).tuner.root) main ∧
        InProgress (Sys.run c limit scaled0 ops).log games ∧
        ((games = [] ∧ lines = main) ∨
         (games ≠ [] ∧ ∃ texts, List.Forall₂ (fun (g : Nat × List Nat) t => ∃ s, SimText S c g.2 s ∧ t = "game ".toList ++ strInt g.1 ++ ": ".toList ++ s)
            (games.take (if 0 ≤ toShow then toShow.toNat else games.length - toShow.natAbs)) texts ∧ lines = main ++ "In progress:".toList :: texts))) ∧
    (∀ e, screenReport S c limit spec toShow (Sys.run c limit scaled0 ops).tuner = .error e → FormatFails S c (Sys.run c limit scaled0 ops).tuner.root e) := by
  obtain ⟨m1, m2⟩ := C86_main S h limit scaled0 ops spec
  have hp := inProgress h limit scaled0 ops
  have hi := stats_of h limit scaled0 ops
  have hcur := (run_inv h limit scaled0 ops).tree.current
  generalize Sys.run c limit scaled0 ops = s at *
  generalize hg : sortBy (fun a b : Nat × List Nat => decide (a.1 ≤ b.1)) s.tuner.outstanding = games at hp
  have hnil : s.tuner.outstanding = [] ↔ games = [] := by
    have := (sortBy_perm (fun a b : Nat × List Nat => decide (a.1 ≤ b.1)) s.tuner.outstanding).length_eq
    rw [hg] at this
    rw [← List.length_eq_zero_iff, ← List.length_eq_zero_iff (l := games), this]
  have hsl : sliceTo toShow games = games.take (if 0 ≤ toShow then toShow.toNat else games.length - toShow.natAbs) := by
    unfold sliceTo; split <;> rfl
  unfold screenReport
  rw [hg]
  cases hm : mainReport S c limit spec s.tuner with
  | error e => exact ⟨fun l hl => (by simp only at hl; cases hl), fun e' he' => by simp only at he'; injection he' with he'; rw [← he']; exact m2 e hm⟩
  | ok main =>
    simp only
    by_cases ho : s.tuner.outstanding = []
    · rw [if_pos ho]
      refine ⟨fun l hl => ?_, fun e' he' => (by cases he')⟩
      injection hl with hl
      exact ⟨main, games, m1 main hm, hp, .inl ⟨hnil.1 ho, hl.symm⟩⟩
    · rw [if_neg ho]
      obtain ⟨e1, e2⟩ := eachLine_spec (l := sliceTo toShow games) (f := gameLine S c)
        (P := fun (g : Nat × List Nat) t => ∃ s, SimText S c g.2 s ∧ t = "game ".toList ++ strInt g.1 ++ ": ".toList ++ s) (E := FormatFails S c s.tuner.root) (by
          rintro ⟨n, p⟩ hx
          rw [hsl] at hx
          have hrun := (hp.2 n p).1 (List.mem_of_mem_take hx)
          obtain ⟨d1, d2⟩ := describeSimulation_spec S hi (hcur n p hrun).1 none
          unfold gameLine
          cases hd : describeSimulation S c p none with
          | error e => exact ⟨fun l hl => (by simp only at hl; cases hl), fun e' he' => by simp only at he'; injection he' with he'; rw [← he']; exact d2 e hd⟩
          | ok t =>
            refine ⟨fun l hl => ?_, fun e' he' => (by simp only at he'; cases he')⟩
            simp only at hl
            injection hl with hl
            obtain ⟨u, hu, hut⟩ := d1 t hd
            have hut : t = u := by rw [hut]; exact List.append_nil _
            exact ⟨u, hu, by rw [← hl, hut]⟩)
      cases he : eachLine (gameLine S c) (sliceTo toShow games) with
      | error e => exact ⟨fun l hl => (by simp only at hl; cases hl), fun e' he' => by simp only at he'; injection he' with he'; rw [← he']; exact e2 e he⟩
      | ok texts =>
        refine ⟨fun l hl => ?_, fun e' he' => (by simp only at he'; cases he')⟩
        simp only at hl
        injection hl with hl
        exact ⟨main, games, m1 main hm, hp, .inr ⟨fun hc => ho (hnil.2 hc), texts, by rw [← hsl]; exact e1 texts he, hl.symm⟩⟩

/-- C86: the short report (which is also the full report). -/
theorem C86_short (S : Show ε) {c : Config} (h : c.Ok) (limit : Option Int) (scaled0 : α) (ops : List TOp) (spec : List Int) (hd : Heading) :
    (∀ lines, shortReport S c limit spec hd (Sys.run c limit scaled0 ops).tuner = .ok lines →
      ∃ main, MainReport S c limit spec (Sys.run c limit scaled0 ops).log (NodeOf (Sys.run c limit scaled0 ops).tuner.root) main ∧
        lines = ["MCTS tuning event: ".toList ++ hd.code] ++ (hd.description.toList.filter (fun s => s ≠ [])) ++ ["board size: ".toList ++ hd.boardSize, "komi: ".toList ++ hd.komi] ++
          main ++ [match hd.opponentDescription.toList.filter (fun s => s ≠ []) with
            | [] => "opponent: ".toList ++ hd.opponent
            | d :: _ => "opponent (".toList ++ hd.opponent ++ "): ".toList ++ d, []]) ∧
    (∀ e, shortReport S c limit spec hd (Sys.run c limit scaled0 ops).tuner = .error e → FormatFails S c (Sys.run c limit scaled0 ops).tuner.root e) := by
  have hopt : ∀ s : Option Str, optionalLine s = s.toList.filter (fun s => s ≠ []) := by
    intro s
    cases s with
    | none => rfl
    | some s =>
      unfold optionalLine
      simp only [Option.toList_some]
      split
      · rename_i h; rw [h]; rfl
      · rename_i h; rw [List.filter_cons, if_pos (by simpa using h)]; rfl
  obtain ⟨m1, m2⟩ := C86_main S h limit scaled0 ops spec
  generalize Sys.run c limit scaled0 ops = s at *
  unfold shortReport opponentLine
  rw [hopt, hopt]
  cases hm : mainReport S c limit spec s.tuner with
  | error e => exact ⟨fun l hl => (by simp only at hl; cases hl), fun e' he' => by simp only at he'; injection he' with he'; rw [← he']; exact m2 e hm⟩
  | ok main =>
    refine ⟨fun l hl => ?_, fun e' he' => (by simp only at he'; cases he')⟩
    simp only at hl
    injection hl with hl
    exact ⟨main, m1 main hm, hl.symm⟩

/-! ### The number of nodes -/

mutual
/-- The size of a tree is the number of paths to its nodes. -/
theorem size_paths : ∀ n : Node, ∃ l : List (List Nat), l.Nodup ∧ (∀ p, p ∈ l ↔ NodeOf n p) ∧ l.length = n.size
  | .mk none w v => by
    refine ⟨[[]], List.nodup_singleton _, ?_, rfl⟩
    intro p
    rw [List.mem_singleton]
    cases p with
    | nil => exact ⟨fun _ => rfl, fun _ => rfl⟩
    | cons i p => exact ⟨fun h => (by cases h), fun h => (by unfold NodeOf Node.get at h; cases h)⟩
  | .mk (some cs) w v => by
    obtain ⟨l, h1, h2, h3⟩ := sizes_paths cs 0
    refine ⟨[] :: l, List.nodup_cons.2 ⟨?_, h1⟩, ?_, ?_⟩
    · intro h
      obtain ⟨i, q, c, h, _⟩ := (h2 []).1 h
      cases h
    · intro p
      rw [List.mem_cons]
      cases p with
      | nil => exact ⟨fun _ => rfl, fun _ => .inl rfl⟩
      | cons i p =>
        rw [h2]
        unfold NodeOf
        simp only [Node.get]
        constructor
        · rintro (h | ⟨j, q, c, h, hc, hq⟩)
          · cases h
          · injection h with h h'
            rw [Nat.zero_add] at h
            subst h; subst h'
            rw [hc]; exact hq
        · intro h
          cases hc : cs[i]? with
          | none => rw [hc] at h; cases h
          | some c => rw [hc] at h; exact .inr ⟨i, p, c, by rw [Nat.zero_add], hc, h⟩
    · rw [List.length_cons, h3]; rfl

theorem sizes_paths : ∀ (cs : List Node) (k : Nat), ∃ l : List (List Nat), l.Nodup ∧
    (∀ p, p ∈ l ↔ ∃ i q c, p = (k + i) :: q ∧ cs[i]? = some c ∧ NodeOf c q) ∧ l.length = Node.sizes cs
  | [], k => ⟨[], List.nodup_nil, fun p => ⟨fun h => (by cases h), fun ⟨i, q, c, _, h, _⟩ => (by simp at h)⟩, rfl⟩
  | c :: cs, k => by
    obtain ⟨l, h1, h2, h3⟩ := size_paths c
    obtain ⟨l', h1', h2', h3'⟩ := sizes_paths cs (k + 1)
    refine ⟨l.map (fun q => k :: q) ++ l', ?_, ?_, ?_⟩
    · rw [List.nodup_append]
      refine ⟨h1.map (fun a b h => by injection h), h1', ?_⟩
      intro a ha b hb he
      obtain ⟨q, _, rfl⟩ := List.mem_map.1 ha
      obtain ⟨i, q', c', h, _⟩ := (h2' b).1 hb
      rw [← he] at h
      injection h with h _
      omega
    · intro p
      rw [List.mem_append, List.mem_map]
      constructor
      · rintro (⟨q, hq, rfl⟩ | h)
        · exact ⟨0, q, c, rfl, rfl, (h2 q).1 hq⟩
        · obtain ⟨i, q, c', rfl, hc, hq⟩ := (h2' p).1 h
          exact ⟨i + 1, q, c', by rw [Nat.add_assoc, Nat.add_comm 1 i], by rw [List.getElem?_cons_succ]; exact hc, hq⟩
      · rintro ⟨i, q, c', rfl, hc, hq⟩
        cases i with
        | zero =>
          rw [List.getElem?_cons_zero] at hc
          injection hc with hc
          subst hc
          exact .inl ⟨q, (h2 q).2 hq, rfl⟩
        | succ i =>
          rw [List.getElem?_cons_succ] at hc
          exact .inr ((h2' _).2 ⟨i, q, c', by rw [Nat.add_assoc, Nat.add_comm 1 i], hc, hq⟩)
    · rw [List.length_append, List.length_map, h3, h3']; rfl
end

theorem sizes_set : ∀ {cs : List Node} {i : Nat} {a : Node} (b : Node), cs[i]? = some a → Node.sizes (cs.set i b) + a.size = Node.sizes cs + b.size
  | [], _, _, _, h => by simp at h
  | c :: cs, 0, a, b, h => by
    rw [List.getElem?_cons_zero] at h
    injection h with h
    subst h
    show b.size + Node.sizes cs + c.size = c.size + Node.sizes cs + b.size
    omega
  | c :: cs, i + 1, a, b, h => by
    rw [List.getElem?_cons_succ] at h
    have := sizes_set b h
    show c.size + Node.sizes (cs.set i b) + a.size = c.size + Node.sizes cs + b.size
    omega

theorem sizes_replicate (n : Node) (hn : n.size = 1) (k : Nat) : Node.sizes (List.replicate k n) = k := by
  induction k with
  | zero => rfl
  | succ k ih =>
    show n.size + Node.sizes (List.replicate k n) = k + 1
    omega

theorem size_modify (c : Config) {w v : Nat} : ∀ {p : List Nat} {root : Node}, root.get p = some (.mk none w v) →
    (root.modify c.expand p).size = root.size + branchingFactor c.splits
  | [], root, h => by
    have h : root = .mk none w v := by injection h
    subst h
    show Node.sizes c.newChildren + 1 = 1 + _
    unfold Config.newChildren
    rw [sizes_replicate _ rfl]; omega
  | i :: p, .mk none w' v', h => by cases h
  | i :: p, .mk (some cs) w' v', h => by
    simp only [Node.get] at h
    cases hc : cs[i]? with
    | none => rw [hc] at h; cases h
    | some d =>
      rw [hc] at h
      have ih := size_modify c (p := p) (root := d) h
      have := sizes_set (d.modify c.expand p) hc
      simp only [Node.modify, hc, Node.size]
      omega

theorem size_countPath (won : Bool) : ∀ (p : List Nat) (n : Node), (countPath won n p).size = n.size
  | [], n => by cases n; rfl
  | i :: p, .mk none w v => rfl
  | i :: p, .mk (some cs) w v => by
    simp only [countPath]
    cases hc : cs[i]? with
    | none => rfl
    | some d =>
      have ih := size_countPath won p (d.count won)
      have hd : (d.count won).size = d.size := by
        cases d with
        | mk c w v => cases c <;> rfl
      have := sizes_set (countPath won (d.count won) p) hc
      simp only [Node.size]
      omega

/-- C86: the counter of nodes which the program keeps is the number of nodes: at the start, after running a simulation, and when statistics are updated. (When the status is loaded the
nodes are counted.) -/
theorem C86_node_count {c : Config} (h : c.Ok) :
    c.newRoot.size = 1 + branchingFactor c.splits ∧
    (∀ (limit : Option Int) (scaled0 : α) (ops : List TOp) (starts : Nat → Nat),
      (c.run starts (Sys.run c limit scaled0 ops).tuner.root).2.size =
        runNodeCount c starts (Sys.run c limit scaled0 ops).tuner.root (Sys.run c limit scaled0 ops).tuner.root.size) ∧
    (∀ won root path, (updateStats won root path).size = root.size) := by
  refine ⟨?_, ?_, ?_⟩
  · show Node.sizes c.newChildren + 1 = _
    unfold Config.newChildren
    rw [sizes_replicate _ rfl]; omega
  · intro limit scaled0 ops starts
    have hi := (run_inv h limit scaled0 ops).tree.uniform
    generalize (Sys.run c limit scaled0 ops).tuner.root = root at *
    obtain ⟨⟨w, v, hl⟩, _⟩ := walk_spec (goodChoice_choose c starts) h.bf 0 root hi
    unfold Config.run runNodeCount
    simp only
    rw [hl]
    simp only
    split
    · exact size_modify c hl
    · rfl
  · intro won root path
    have hc := size_countPath won path root
    unfold updateStats
    cases hcp : countPath won root path with
    | mk cs w v =>
      rw [hcp] at hc
      rw [← hc]
      cases cs <;> rfl

/-! ### The tree's description -/

theorem describeNode_spec (S : Show ε) {c : Config} {root : Node} {sims : List (List Nat × Bool)} (h : Stats c root sims) {q : List Nat} {i : Nat} {n : Node}
    (hn : root.get (q ++ [i]) = some n) :
    (∀ s, describeNode S c n (q ++ [i]) = .ok s → TreeLine S c sims q i s) ∧ (∀ e, describeNode S c n (q ++ [i]) = .error e → FormatFails S c root e) := by
  have hnode : NodeOf root (q ++ [i]) := by unfold NodeOf; rw [hn]; rfl
  obtain ⟨ps, h1, h2⟩ := formatPath_spec h.ok.splits S (h.lt hnode)
  obtain ⟨co, h3, h4, h5⟩ := choice_ok (ε := ε) h.ok.splits (h.lt hnode i (by simp))
  obtain ⟨h6, h7⟩ := visits_text h hn
  have hlast : (q ++ [i]).getLast?.getD 0 = i := by rw [List.getLast?_concat]; rfl
  unfold describeNode
  rw [hlast]
  rcases h2 with ⟨s, ha, hb⟩ | ⟨e, ha, hb⟩
  · rw [hb, h5, h6, h7]
    refine ⟨fun t ht => ?_, fun e he => (by simp only at he; cases he)⟩
    simp only at ht
    injection ht with ht
    exact ⟨ps, s, co, h1, ha, h3, h4, ht.symm⟩
  · rw [hb]
    refine ⟨fun t ht => (by simp only at ht; cases ht), fun e' he => ?_⟩
    simp only at he
    injection he with he
    exact ⟨_, ps, e, hnode, h1, ha, he.symm⟩

theorem forall2_range {β : Type} {R : Nat → β → Prop} {cs : List Node} {l : List β} : ∀ {k : Nat}, List.Forall₂ (fun (x : Node × Nat) s => R x.2 s) (cs.zipIdx k) l →
    List.Forall₂ R (List.range' k cs.length) l := by
  induction cs generalizing l with
  | nil => intro k h; cases h; exact .nil
  | cons c cs ih =>
    intro k h
    rw [List.zipIdx_cons] at h
    cases h with
    | cons h1 h2 =>
      rw [List.length_cons, List.range'_succ]
      exact .cons h1 (ih h2)

theorem forall2_prefix {R : Nat → Str → Prop} {pre : Str} {l : List Nat} {ss : List Str} (h : List.Forall₂ (fun i s => ∃ t, R i t ∧ s = pre ++ t) l ss) :
    ∃ ts, List.Forall₂ R l ts ∧ ss = ts.map (fun t => pre ++ t) := by
  induction h with
  | nil => exact ⟨[], .nil, rfl⟩
  | cons h _ ih =>
    obtain ⟨t, h1, h2⟩ := h
    obtain ⟨ts, h3, h4⟩ := ih
    exact ⟨t :: ts, .cons h1 h3, by rw [h2, h4]; rfl⟩

theorem describeChildren_spec (S : Show ε) {c : Config} {root : Node} {sims : List (List Nat × Bool)} (h : Stats c root sims) {i : Nat} {n : Node} (hn : root.get [i] = some n) :
    (∀ below, describeChildren S c i n = .ok below → ((¬ NodeOf root [i, 0] ∧ below = []) ∨
      (NodeOf root [i, 0] ∧ ∃ ls, List.Forall₂ (TreeLine S c sims [i]) (List.range (product c.splits)) ls ∧ below = ls.map (fun l => "    ".toList ++ l)))) ∧
    (∀ e, describeChildren S c i n = .error e → FormatFails S c root e) := by
  have hget : ∀ j, root.get [i, j] = n.get [j] := by
    intro j
    have := get_append [i] [j] root
    rw [hn] at this
    exact this
  cases n with
  | mk cs w v =>
    unfold describeChildren
    cases cs with
    | none =>
      refine ⟨fun below hb => .inl ⟨?_, by injection hb with hb; exact hb.symm⟩, fun e he => by cases he⟩
      unfold NodeOf
      rw [hget]
      intro hc; cases hc
    | some cs =>
      have hlen : cs.length = product c.splits := by rw [← branchingFactor_eq]; exact h.uniform [i] _ hn _ rfl
      have hpos : 0 < product c.splits := product_pos h.ok.splits
      have hchild : ∀ j m, cs[j]? = some m → root.get ([i] ++ [j]) = some m := by
        intro j m hm
        show root.get [i, j] = _
        rw [hget]
        simp only [Node.get, hm]
      obtain ⟨e1, e2⟩ := eachLine_spec (l := cs.zipIdx) (f := belowLine S c i) (P := fun (x : Node × Nat) s => ∃ t, TreeLine S c sims [i] x.2 t ∧ s = "    ".toList ++ t)
        (E := FormatFails S c root) (by
          rintro ⟨m, j⟩ hx
          have hm : cs[j]? = some m := List.mem_zipIdx_iff_getElem?.1 hx
          obtain ⟨d1, d2⟩ := describeNode_spec S h (hchild j m hm)
          unfold belowLine
          show (∀ s, (match describeNode S c m ([i] ++ [j]) with | .error e => .error e | .ok s => .ok ("    ".toList ++ s)) = Except.ok s → _) ∧
            ∀ e, (match describeNode S c m ([i] ++ [j]) with | .error e => .error e | .ok s => .ok ("    ".toList ++ s)) = Except.error e → _
          cases hd : describeNode S c m ([i] ++ [j]) with
          | error e => exact ⟨fun l hl => (by simp only at hl; cases hl), fun e' he' => by simp only at he'; injection he' with he'; rw [← he']; exact d2 e hd⟩
          | ok t =>
            refine ⟨fun l hl => ?_, fun e' he' => (by simp only at he'; cases he')⟩
            simp only at hl
            injection hl with hl
            exact ⟨t, d1 t hd, hl.symm⟩)
      refine ⟨fun below hb => .inr ⟨?_, ?_⟩, fun e he => e2 e he⟩
      · unfold NodeOf
        rw [hget]
        have h0 : cs[0]? = some cs[0] := List.getElem?_eq_getElem (by omega)
        simp only [Node.get, h0]
        rfl
      · have hf := forall2_range (R := fun j s => ∃ t, TreeLine S c sims [i] j t ∧ s = "    ".toList ++ t) (e1 below hb)
        rw [hlen, ← List.range_eq_range'] at hf
        exact forall2_prefix hf

theorem describeLoop_spec (S : Show ε) {c : Config} {root : Node} {sims : List (List Nat × Bool)} (h : Stats c root sims) : ∀ (l : List (Node × Nat)),
    (∀ x ∈ l, root.get [x.2] = some x.1) →
    (∀ lines, describeLoop S c l = .ok lines → ∃ blocks, List.Forall₂ (fun (x : Node × Nat) b => TreeBlock S c sims (NodeOf root) x.2 b) l blocks ∧ lines = blocks.flatten) ∧
    (∀ e, describeLoop S c l = .error e → FormatFails S c root e)
  | [], _ => ⟨fun lines hl => ⟨[], .nil, by injection hl with hl; exact hl.symm⟩, fun e he => by cases he⟩
  | (n, i) :: l, hx => by
    have hn : root.get [i] = some n := hx (n, i) List.mem_cons_self
    obtain ⟨i1, i2⟩ := describeLoop_spec S h l (fun x hm => hx x (List.mem_cons_of_mem _ hm))
    obtain ⟨d1, d2⟩ := describeNode_spec S h (q := []) hn
    obtain ⟨c1, c2⟩ := describeChildren_spec S h hn
    rw [List.nil_append] at d1 d2
    unfold describeLoop
    cases hd : describeNode S c n [i] with
    | error e => exact ⟨fun l hl => (by simp only at hl; cases hl), fun e' he' => by simp only at he'; injection he' with he'; rw [← he']; exact d2 e hd⟩
    | ok s =>
      simp only
      cases hc : describeChildren S c i n with
      | error e => exact ⟨fun l hl => (by simp only at hl; cases hl), fun e' he' => by simp only at he'; injection he' with he'; rw [← he']; exact c2 e hc⟩
      | ok below =>
        simp only
        cases hr : describeLoop S c l with
        | error e => exact ⟨fun l hl => (by simp only at hl; cases hl), fun e' he' => by simp only at he'; injection he' with he'; rw [← he']; exact i2 e hr⟩
        | ok rest =>
          refine ⟨fun lines hl => ?_, fun e' he' => (by simp only at he'; cases he')⟩
          simp only at hl
          injection hl with hl
          obtain ⟨blocks, b1, b2⟩ := i1 rest hr
          exact ⟨_ :: blocks, .cons ⟨s, below, d1 s hd, rfl, c1 below hc⟩ b1, by rw [List.flatten_cons, ← b2, ← hl]⟩

theorem through_nil (sims : List (List Nat × Bool)) : through [] sims = sims.length ∧ wonThrough [] sims = sims.countP (fun s => s.2) := by
  constructor
  · unfold through; rw [List.countP_eq_length]; intro s _; rfl
  · unfold wonThrough; congr 1

theorem describeTree_spec (S : Show ε) {c : Config} {root : Node} {sims : List (List Nat × Bool)} (h : Stats c root sims) :
    (∀ lines, describeTree S c root = .ok lines → TreeText S c sims (NodeOf root) lines) ∧ (∀ e, describeTree S c root = .error e → FormatFails S c root e) := by
  cases root with
  | mk cs w v =>
    cases cs with
    | none => have := h.expanded; cases this
    | some cs =>
      have hlen : cs.length = product c.splits := by rw [← branchingFactor_eq]; exact h.uniform [] _ rfl _ rfl
      obtain ⟨l1, l2⟩ := describeLoop_spec S h cs.zipIdx (by
        rintro ⟨m, i⟩ hm
        have hm : cs[i]? = some m := List.mem_zipIdx_iff_getElem?.1 hm
        simp only [Node.get, hm])
      obtain ⟨nodes, n1, n2, n3⟩ := size_paths (.mk (some cs) w v)
      obtain ⟨s1, s2⟩ := h.stats [] _ rfl
      obtain ⟨t1, t2⟩ := through_nil sims
      unfold describeTree
      show (∀ lines, (match describeLoop S c cs.zipIdx with | .error e => .error e | .ok lines => .ok _) = Except.ok lines → _) ∧
        ∀ e, (match describeLoop S c cs.zipIdx with | .error e => .error e | .ok lines => .ok _) = Except.error e → _
      cases hd : describeLoop S c cs.zipIdx with
      | error e => exact ⟨fun l hl => (by simp only at hl; cases hl), fun e' he' => by simp only at he'; injection he' with he'; rw [← he']; exact l2 e hd⟩
      | ok lines =>
        refine ⟨fun l hl => ?_, fun e' he' => (by simp only at he'; cases he')⟩
        simp only at hl
        injection hl with hl
        obtain ⟨blocks, b1, b2⟩ := l1 lines hd
        have hb := forall2_range (R := fun i b => TreeBlock S c sims (NodeOf (.mk (some cs) w v)) i b) b1
        rw [hlen, ← List.range_eq_range'] at hb
        refine ⟨nodes, blocks, n1, n2, hb, ?_⟩
        rw [← hl, ← b2, n3]
        have e1 : ((Node.mk (some cs) w v).wins : Int) - c.initialWins = (sims.countP (fun s => s.2) : Nat) := by rw [s2, t2]; omega
        have e2 : ((Node.mk (some cs) w v).visits : Int) - c.initialVisits = (sims.length : Nat) := by rw [s1, t1]; omega
        have e3 : rateText S.f3 (((Node.mk (some cs) w v).wins : Int) - c.initialWins) (((Node.mk (some cs) w v).visits : Int) - c.initialVisits) =
            "Win rate ".toList ++ strInt (sims.countP (fun s => s.2)) ++ "/".toList ++ strInt sims.length ++ " = ".toList ++
              (if sims = [] then "--".toList else S.f3 ((sims.countP (fun s => s.2) : Rat) / sims.length)) := by
          rw [e1, e2]
          unfold rateText
          congr 1
          by_cases hs : sims = []
          · rw [if_pos hs, if_pos (by rw [hs]; rfl)]
          · rw [if_neg hs, if_neg (by have := List.length_pos_of_ne_nil hs; omega)]
            rfl
        rw [e3]
        rfl

/-- C86: the tree's description (which is written in the history). -/
theorem C86_tree (S : Show ε) {c : Config} (h : c.Ok) (limit : Option Int) (scaled0 : α) (ops : List TOp) :
    (∀ lines, describeTree S c (Sys.run c limit scaled0 ops).tuner.root = .ok lines →
      TreeText S c (completed (Sys.run c limit scaled0 ops).log) (NodeOf (Sys.run c limit scaled0 ops).tuner.root) lines) ∧
    (∀ e, describeTree S c (Sys.run c limit scaled0 ops).tuner.root = .error e → FormatFails S c (Sys.run c limit scaled0 ops).tuner.root e) :=
  describeTree_spec S (stats_of h limit scaled0 ops)

/-- C86: what's written when a game has a result: in the history, the simulation with whether the candidate won, and then the tree's description if the number of games which have ended
(now) is a multiple of the period; the text for the display and the log has the simulation and the game's result. -/
theorem C86_result (S : Show ε) {c : Config} (h : c.Ok) (limit : Option Int) (scaled0 : α) (ops : List TOp) (period : Option Nat) (n : Nat) (p : List Nat) (won : Bool) (sgf : Str)
    (hn : running n (Sys.run c limit scaled0 ops).log = some p) :
    let s := Sys.run c limit scaled0 (ops ++ [.result n won])
    s.log = .finished n won :: (Sys.run c limit scaled0 ops).log ∧
    (∀ r, resultTexts S c period s.tuner p won sgf = .ok r → ∃ t, SimText S c p t ∧
      r.2 = t ++ (if won then " won ".toList else " lost ".toList) ++ sgf ∧
      (((∃ k, period = some k ∧ (k : Int) ∣ (ended s.log).length) ∧
          ∃ lines, TreeText S c (completed s.log) (NodeOf s.tuner.root) lines ∧ r.1 = [t ++ (if won then " won".toList else " lost".toList), join ['\n'] lines]) ∨
       (¬ (∃ k, period = some k ∧ (k : Int) ∣ (ended s.log).length) ∧ r.1 = [t ++ (if won then " won".toList else " lost".toList)]))) ∧
    (∀ e, resultTexts S c period s.tuner p won sgf = .error e → FormatFails S c s.tuner.root e) := by
  intro s
  have hi := run_inv h limit scaled0 ops
  have hstep : s = (Sys.run c limit scaled0 ops).step c limit scaled0 (.result n won) := by
    show Sys.run c limit scaled0 (ops ++ [.result n won]) = _
    unfold Sys.run
    rw [List.foldl_append]
    rfl
  have hst : Stats c s.tuner.root (completed s.log) := stats_of h limit scaled0 (ops ++ [.result n won])
  have hfix : s.tuner.scheduler.fixed = (ended s.log).length := (C43_number_of_games h limit scaled0 (ops ++ [.result n won])).1
  generalize s = s' at *
  generalize Sys.run c limit scaled0 ops = s0 at *
  obtain ⟨hp, hp2, hmem⟩ := hi.tree.current n p hn
  have hl : s0.tuner.outstanding.lookup n = some p := by rw [hi.out, hn]
  have hr : ¬ running n s0.log = none := by rw [hn]; exact nofun
  have hboth : s'.log = .finished n won :: s0.log ∧ s'.tuner.root = updateStats won s0.tuner.root p := by
    rw [hstep]
    simp only [Sys.step]
    rw [if_neg hr]
    unfold Tuner.processResult
    simp only [fix_ok hmem, hl]
    exact ⟨trivial, trivial⟩
  have hnode : NodeOf s'.tuner.root p := by
    unfold NodeOf
    rw [hboth.2]
    exact get_updateStats_isSome won hp
  refine ⟨hboth.1, ?_⟩
  clear hstep hboth
  have hper : (period.map (fun k => s'.tuner.scheduler.fixed % (k : Int))) = some 0 ↔ ∃ k : Nat, period = some k ∧ (k : Int) ∣ (ended s'.log).length := by
    rw [hfix]
    cases period with
    | none => exact ⟨nofun, fun ⟨_, hk, _⟩ => nomatch hk⟩
    | some k =>
      constructor
      · intro hk
        exact ⟨k, rfl, Int.dvd_of_emod_eq_zero (Option.some.inj hk)⟩
      · rintro ⟨k', hk, hd⟩
        rw [Option.some.inj hk]
        exact congrArg some (Int.emod_eq_zero_of_dvd hd)
  obtain ⟨d1, d2⟩ := describeSimulation_spec S hst hnode (some won)
  obtain ⟨t1, t2⟩ := describeTree_spec S hst
  have hw : wonText (some won) = if won then " won".toList else " lost".toList := by cases won <;> rfl
  have hw2 : ∀ t : Str, t ++ wonText (some won) ++ " ".toList = t ++ (if won then " won ".toList else " lost ".toList) := by
    intro t; rw [List.append_assoc]; cases won <;> rfl
  unfold resultTexts
  cases hd : describeSimulation S c p (some won) with
  | error e => exact ⟨fun l hl => (by simp only at hl; cases hl), fun e' he' => by simp only at he'; injection he' with he'; rw [← he']; exact d2 e hd⟩
  | ok text =>
    obtain ⟨t, ht, hte⟩ := d1 text hd
    by_cases hc : (period.map (fun k => s'.tuner.scheduler.fixed % (k : Int))) = some 0
    · rw [if_pos hc]
      cases htr : describeTree S c s'.tuner.root with
      | error e => exact ⟨fun l hl => (by simp only at hl; cases hl), fun e' he' => by simp only at he'; injection he' with he'; rw [← he']; exact t2 e htr⟩
      | ok lines =>
        refine ⟨fun r hr => ?_, fun e' he' => (by simp only at he'; cases he')⟩
        simp only at hr
        injection hr with hr
        refine ⟨t, ht, ?_, .inl ⟨hper.1 hc, lines, t1 lines htr, ?_⟩⟩
        · rw [← hr, hte]; show _ ++ _ ++ _ = _; rw [hw2]
        · rw [← hr, hte, hw]
    · rw [if_neg hc]
      refine ⟨fun r hr => ?_, fun e' he' => (by simp only at he'; cases he')⟩
      simp only at hr
      injection hr with hr
      refine ⟨t, ht, ?_, .inr ⟨fun hk => hc (hper.2 hk), ?_⟩⟩
      · rw [← hr, hte]; show _ ++ _ ++ _ = _; rw [hw2]
      · rw [← hr, hte, hw]


/-! ### A concrete case -/

/-- A formatter: the parameters as fractions (it refuses nothing). -/
def sampleShow : Show Unit :=
  { f3 := fun q => strInt q.num ++ "/".toList ++ strInt q.den
    params := fun ps => .ok (join ",".toList (ps.map (fun q => strInt q.num ++ "/".toList ++ strInt q.den))) }

/-- Five games: three with results, one which failed, and one in progress; with a restart after the first result. -/
def reportOps : List TOp :=
  [.getGame (fun _ => 0) (fun _ => true), .result 0 true, .save, .restart,
   .getGame (fun _ => 0) (fun _ => true), .getGame (fun _ => 1) (fun _ => true), .result 2 true, .error 1,
   .getGame (fun _ => 2) (fun _ => true), .result 3 false, .getGame (fun _ => 0) (fun _ => true)]

/-- The lines of a report. -/
def linesOf (r : Except (RErr Unit) (List Str)) : List Str := match r with | .ok l => l | .error _ => ["error".toList]

/-- The texts for a result. -/
def textsOf (r : Except (RErr Unit) (List Str × Str)) : List Str := match r with | .ok l => l.2 :: l.1 | .error _ => ["error".toList]

/-- C86: the hypotheses are met, and what the reports say. -/
theorem C86_witness : sampleConfig.Ok ∧ running 4 (Sys.run sampleConfig (some 10) () reportOps).log = some [0, 0] ∧
    linesOf (screenReport sampleShow sampleConfig (some 10) [2, 1] 3 (Sys.run sampleConfig (some 10) () reportOps).tuner) =
      ["4/10 games played", "", "Best parameters: 1/8,1/6 [(0,0) (0,1)]", "", "most visited at depth 1",
        "(0,0) 1/4,1/6                                  7/13   3", "(0,1) 1/4,1/2                                  1/2   0", "", "most visited at depth 2",
        "(0,0) (0,1) 1/8,1/6                                  1/2   2", "", "In progress:", "game 4: 1/8,1/18 [(0,0) (0,0)]"].map String.toList ∧
    linesOf (describeTree sampleShow sampleConfig (Sys.run sampleConfig (some 10) () reportOps).tuner.root) =
      ["13 nodes", "Win rate 2/3 = 2/3", "  (0,0) 1/4,1/6 7/13   3", "    (0,0) 1/8,1/18 1/2   0", "    (0,1) 1/8,1/6 1/2   2", "    (0,2) 1/8,5/18 1/2   0",
        "    (1,0) 3/8,1/18 1/2   0", "    (1,1) 3/8,1/6 1/2   0", "    (1,2) 3/8,5/18 1/2   0", "  (0,1) 1/4,1/2 1/2   0", "  (0,2) 1/4,5/6 1/2   0", "  (1,0) 3/4,1/6 1/2   0",
        "  (1,1) 3/4,1/2 1/2   0", "  (1,2) 3/4,5/6 1/2   0"].map String.toList ∧
    textsOf (resultTexts sampleShow sampleConfig (some 2) (Sys.run sampleConfig (some 10) () (reportOps ++ [.result 4 true])).tuner [0, 0] true "B+1".toList) =
      ["1/8,1/18 [(0,0) (0,0)] won B+1", "1/8,1/18 [(0,0) (0,0)] won"].map String.toList :=
  ⟨sampleConfig_ok, by decide +kernel, by decide +kernel, by decide +kernel, by decide +kernel⟩

end Gomill.Mcts
