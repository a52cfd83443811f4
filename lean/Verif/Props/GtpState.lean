import Verif.Lemmas.GtpState
import Verif.Props.Vertex
import Verif.Props.SgfText
/-
C34, C35: properties of gomill/gtp_states.py.
-/
namespace Gomill.Gtp
open Py Go

/-- The command reports failure (or the handler raises an unexpected exception). -/
def Failed (o : Outcome) : Prop := ¬ ∃ r, o = .value r

/-- States of a Gtp_state which has handled a sequence of commands, no failing one of which changed the board size. -/
inductive Reached (env : Env) (acceptable : List Int) : GS → Prop
  | start {s : GS} : GS.init acceptable = .ok s → Reached env acceptable s
  | step {s s' : GS} {c : Cmd} {args : List Str} {o : Outcome} : Reached env acceptable s → s.step env c args = (s', o) →
      (Failed o → s'.boardSize = s.boardSize) → Reached env acceptable s'

/-- The last move was a pass. -/
def EndsWithPass (hist : List Mv) : Prop := ∃ l c, hist = l ++ [(c, none)]

structure Inv (n : Nat) (s : GS) : Prop where
  size : s.boardSize = n
  two : 2 ≤ n
  acc : ∀ x ∈ s.acceptable, 2 ≤ x
  base : ReachableBoard n s.base
  rep : ∃ ko pl, replayK s.base none none s.history = .ok (s.board, ko, pl) ∧
    (s.koPoint = none ∨ s.koPoint = ko ∧ s.koPlayer = pl) ∧ (¬ EndsWithPass (mvs s.history) → s.koPoint = ko)

theorem not_ends_nil : ¬ EndsWithPass [] := by rintro ⟨l, c, h⟩; simp at h

theorem not_ends_stone {l : List Mv} {c : Colour} {p : Pt} : ¬ EndsWithPass (l ++ [(c, some p)]) := by
  rintro ⟨l', c', h⟩
  have := (List.append_inj' h rfl).2
  simp at this

theorem init_reachable {n : Nat} {b : Board} (h : Board.init n = .ok b) : ReachableBoard n b := ⟨b, [], h, rfl⟩

theorem setup_reachable {n : Nat} {b b' : Board} {bl wh em : List Pt} {lg : Bool} (h : ReachableBoard n b)
    (hp : b.applySetup bl wh em = .ok (lg, b')) : ReachableBoard n b' := by
  obtain ⟨b0, ops, h0, rfl⟩ := h
  refine ⟨b0, ops ++ [.setup defaultPops bl wh em], h0, ?_⟩
  rw [List.foldl_append]
  simp only [List.foldl_cons, List.foldl_nil, stepBoard]
  unfold Board.applySetup at hp
  rw [hp]

theorem Inv.board {n : Nat} {s : GS} (h : Inv n s) : ReachableBoard n s.board := by
  obtain ⟨ko, pl, h1, _⟩ := h.rep
  exact (replayK_rules h.base s.history _ _ _ h1).1

theorem init_ok {n : Nat} (h : 2 ≤ n) : ∃ b, Board.init n = .ok b ∧ ∀ q, b.pos q = none := by
  have : Board.init n = .ok ⟨n, List.replicate n (List.replicate n none), true⟩ := by
    unfold Board.init; rw [if_neg (by omega)]
  exact ⟨_, this, congrFun (init_spec this).2.2.2.2⟩

/-- A state with an empty board and nothing else. -/
def IsReset (n : Nat) (s s' : GS) : Prop :=
  ∃ b, Board.init n = .ok b ∧
    s' = { s with board := b, handicap := none, koPoint := none, koPlayer := none, base := b, history := [] }

theorem IsReset.inv {n : Nat} {s s' : GS} (h : IsReset n s s') (hs : s.boardSize = n) (h2 : 2 ≤ n)
    (ha : ∀ x ∈ s.acceptable, 2 ≤ x) : Inv n s' := by
  obtain ⟨b, hb, rfl⟩ := h
  exact ⟨hs, h2, ha, init_reachable hb, none, none, rfl, .inl rfl, fun _ => rfl⟩

theorem reset_spec {n : Nat} {s : GS} (hs : s.boardSize = n) (h2 : 2 ≤ n) :
    ∃ s', s.reset = (s', none) ∧ IsReset n s s' := by
  obtain ⟨b, hb, _⟩ := init_ok h2
  refine ⟨_, ?_, b, hb, rfl⟩
  unfold GS.reset
  have : s.boardSize.toNat = n := by omega
  rw [this, hb]

theorem failed_value {r : Option Str} : ¬ Failed (.value r) := fun h => h ⟨r, rfl⟩

/-! ### each command -/

theorem boardsize_spec {n : Nat} {s s' : GS} {args : List Str} {o : Outcome} (hi : Inv n s)
    (h : s.boardsize args = (s', o)) : (Failed o ∧ s' = s) ∨ (¬ Failed o ∧ ∃ n', Inv n' s') := by
  unfold GS.boardsize err at h
  split at h
  · left; cases h; exact ⟨by rintro ⟨r, h⟩; simp at h, rfl⟩
  · split at h
    · left; cases h; exact ⟨by rintro ⟨r, h⟩; simp at h, rfl⟩
    · rename_i size _
      split at h
      · left; cases h; exact ⟨by rintro ⟨r, h⟩; simp at h, rfl⟩
      · rename_i hacc
        have h2 := hi.acc size (by simpa using hacc)
        obtain ⟨s1, h3, h4⟩ := reset_spec (n := size.toNat) (s := { s with boardSize := size }) (by simp; omega) (by omega)
        rw [h3] at h
        cases h
        exact .inr ⟨failed_value, _, h4.inv (by simp; omega) (by omega) hi.acc⟩

theorem clearBoard_spec {n : Nat} {s s' : GS} {args : List Str} {o : Outcome} (hi : Inv n s)
    (h : s.clearBoard args = (s', o)) : (Failed o ∧ s' = s) ∨ (¬ Failed o ∧ ∃ n', Inv n' s') := by
  unfold GS.clearBoard at h
  obtain ⟨s1, h3, h4⟩ := reset_spec hi.size hi.two
  rw [h3] at h
  cases h
  exact .inr ⟨failed_value, _, h4.inv hi.size hi.two hi.acc⟩

theorem setKomi_spec {n : Nat} {env : Env} {s s' : GS} {args : List Str} {o : Outcome} (hi : Inv n s)
    (h : s.setKomi env args = (s', o)) : (Failed o ∧ s' = s) ∨ (¬ Failed o ∧ ∃ n', Inv n' s') := by
  unfold GS.setKomi err at h
  split at h
  · left; cases h; exact ⟨by rintro ⟨r, h⟩; simp at h, rfl⟩
  · split at h
    · left; cases h; exact ⟨by rintro ⟨r, h⟩; simp at h, rfl⟩
    · cases h
      exact .inr ⟨failed_value, n, hi.size, hi.two, hi.acc, hi.base, hi.rep⟩

theorem empty_pos {n : Nat} {b : Board} (h : ReachableBoard n b) (he : b.isEmpty = true) : ∀ q, b.pos q = none :=
  h.inv.flag.1 he

theorem vertexText_ok {n : Nat} (hn : n ≤ 25) {l : List Pt} (h : ∀ p ∈ l, OnBoard n p) : ∃ t, vertexText l = .ok t := by
  have : ∃ t, l.mapM (fun p => formatVertex (some p)) = .ok t := by
    induction l with
    | nil => exact ⟨_, rfl⟩
    | cons p l ih =>
      obtain ⟨t, ht⟩ := ih (fun q hq => h q (by simp [hq]))
      have hp : OnBoard 25 p := by
        have := h p (by simp)
        unfold OnBoard at *; push_cast; omega
      obtain ⟨x, hx⟩ := (C14_format_total p).1.1 hp
      rw [List.mapM_cons, hx, ht]
      exact ⟨_, rfl⟩
  obtain ⟨t, ht⟩ := this
  unfold vertexText
  rw [ht]
  exact ⟨_, rfl⟩

/-- The effect of placing handicap stones. -/
structure Placed (n : Nat) (s s' : GS) (k : Int) (l : List Pt) : Prop where
  eq : ∃ b, s' = { s with board := b, base := b, history := [], koPoint := none, handicap := some k }
  pos : ∀ q, s'.board.pos q = if q ∈ l then some .b else none
  inv : Inv n s'

theorem fixed_points {k : Int} {n : Nat} {l : List Pt} (h : Handicap.points k n = .ok l) :
    l.Nodup ∧ (∀ p ∈ l, OnBoard n p) ∧ (l.length : Int) = k ∧ n ≤ 25 ∧ 7 < n ∧ (0, 0) ∉ l := by
  rcases C15_handicap_points k n with ⟨m, hm, h2, hkm, l', hl', h3, h4, h5⟩ | ⟨h', _⟩
  · rw [h] at hl'; cases hl'
    have hn : 7 < n ∧ n ≤ 25 := by
      unfold Handicap.maxFixed at hm
      split at hm
      · simp at hm; omega
      · split at hm
        · simp at hm
        · omega
    refine ⟨h4, by simpa using h5, h3, hn.2, hn.1, ?_⟩
    intro h0
    have := (C15_altitude k n l h (0, 0) h0).1
    simp only at this
    split at this <;> omega
  · rw [h] at h'; simp at h'

theorem points_error {k n : Int} {e : Exc} (h : Handicap.points k n = .error e) : e = .valueError := by
  rcases C15_handicap_points k n with ⟨m, hm, h2, hkm, l', hl', h3, h4, h5⟩ | ⟨h', _⟩
  · rw [h] at hl'; simp at hl'
  · rw [h] at h'; simpa using h'

theorem place_points {n : Nat} {s : GS} (hi : Inv n s) (he : s.board.isEmpty = true) {k k' : Int} {l : List Pt}
    (h : Handicap.points k n = .ok l) :
    ∃ b t, playAll s.board l = (b, none) ∧ vertexText l = .ok t ∧
      Placed n s (GS.setHistoryBase { s with board := b, koPoint := none, handicap := some k' } b.copy) k' l := by
  obtain ⟨h1, h2, h3, h4, h5, h6⟩ := fixed_points h
  have hpos := empty_pos hi.board he
  obtain ⟨b, hb1, hb2, hb3⟩ := playAll_spec l hi.board (by simp [hpos]) h1 (fun p hp => ⟨h2 p hp, hpos p⟩)
  obtain ⟨t, ht⟩ := vertexText_ok h4 h2
  refine ⟨b, t, hb1, ht, ⟨b, rfl⟩, ?_, ⟨hi.size, hi.two, hi.acc, hb2, none, none, rfl, .inl rfl, fun _ => rfl⟩⟩
  intro q
  have := hb3 ⟨(0, 0), by unfold OnBoard; simp; omega, hpos _, h6⟩ q
  rw [hpos] at this
  exact this

theorem fixedHandicap_spec {n : Nat} {s s' : GS} {args : List Str} {o : Outcome} (hi : Inv n s)
    (h : s.fixedHandicap args = (s', o)) :
    (Failed o ∧ s' = s) ∨ (¬ Failed o ∧ ∃ a r k l t, args = a :: r ∧ interpretInt a = some k ∧ Handicap.points k n = .ok l ∧
      vertexText l = .ok t ∧ o = .value (some t) ∧ s.board.isEmpty = true ∧ Placed n s s' k l) := by
  unfold GS.fixedHandicap err exc at h
  split at h
  · left; cases h; exact ⟨by rintro ⟨r, h⟩; simp at h, rfl⟩
  · split at h
    · left; cases h; exact ⟨by rintro ⟨r, h⟩; simp at h, rfl⟩
    · rename_i a r _ k hk
      split at h
      · left; cases h; exact ⟨by rintro ⟨r, h⟩; simp at h, rfl⟩
      · rename_i he
        split at h
        · left; cases h; exact ⟨by rintro ⟨r, h⟩; simp at h, rfl⟩
        · left; cases h; exact ⟨by rintro ⟨r, h⟩; simp at h, rfl⟩
        · rename_i l hl
          rw [hi.size] at hl
          obtain ⟨b, t, h1, h2, h3⟩ := place_points (k' := k) hi (by simpa using he) hl
          rw [h1] at h
          simp only [h2] at h
          cases h
          exact .inr ⟨failed_value, a, r, k, l, t, rfl, hk, hl, h2, rfl, by simpa using he, h3⟩

theorem chooseFree_ok {k : Int} {n : Nat} {l : List Pt} (h : chooseFree k n = .ok l) :
    ∃ k', k' ≤ k ∧ Handicap.points k' n = .ok l := by
  unfold chooseFree at h
  cases hm : Handicap.maxFixed n with
  | error e => rw [hm] at h; cases h
  | ok m => rw [hm] at h; exact ⟨min k m, by omega, h⟩

theorem placeFreeHandicap_spec {n : Nat} {s s' : GS} {args : List Str} {o : Outcome} (hi : Inv n s)
    (h : s.placeFreeHandicap args = (s', o)) :
    (Failed o ∧ s' = s) ∨ (¬ Failed o ∧ ∃ a r k k' k'' l t, args = a :: r ∧ interpretInt a = some k'' ∧
      k' ≤ k ∧ k ≤ k'' ∧ Handicap.points k' n = .ok l ∧
      vertexText l = .ok t ∧ o = .value (some t) ∧ s.board.isEmpty = true ∧ Placed n s s' k l) := by
  unfold GS.placeFreeHandicap err exc at h
  split at h
  · left; cases h; exact ⟨by rintro ⟨r, h⟩; simp at h, rfl⟩
  · split at h
    · left; cases h; exact ⟨by rintro ⟨r, h⟩; simp at h, rfl⟩
    · rename_i a r _ k hk
      simp only at h
      split at h
      · left; cases h; exact ⟨by rintro ⟨r, h⟩; simp at h, rfl⟩
      · rename_i hrange
        split at h
        · left; cases h; exact ⟨by rintro ⟨r, h⟩; simp at h, rfl⟩
        · rename_i he
          generalize hk2 : (if k = Handicap.maxFree s.boardSize then Handicap.maxFree s.boardSize - 1 else k) = k2 at h
          have hk2' : k2 ≤ k := by split at hk2 <;> omega
          split at h
          · left; cases h; exact ⟨by rintro ⟨r, h⟩; simp at h, rfl⟩
          · rename_i l hl
            rw [hi.size] at hl
            obtain ⟨k', hk', hl'⟩ := chooseFree_ok hl
            obtain ⟨b, t, h1, h2, h3⟩ := place_points (k' := k2) hi (by simpa using he) hl'
            have hlen := (fixed_points hl').2.2.1
            rw [if_neg (by omega), h1] at h
            simp only [h2] at h
            cases h
            exact .inr ⟨failed_value, a, r, k2, k', k, l, t, rfl, hk, hk', hk2', hl', h2, rfl, by simpa using he, h3⟩

/-- The points a list of vertices stands for: none if one of them is a pass or isn't a vertex. -/
def vertexPoints (n : Nat) : List Str → Option (List Pt)
  | [] => some []
  | v :: vs => match moveFromVertex v n, vertexPoints n vs with
    | .ok (some p), some l => some (p :: l)
    | _, _ => none

theorem exists_free {n : Nat} {l : List Pt} (h : (l.length : Int) < n * n) : ∃ e, OnBoard n e ∧ e ∉ l := by
  by_contra hno
  simp only [not_exists, not_and, not_not] at hno
  have h1 : boardPoints n ⊆ l := fun p hp => hno p (mem_boardPoints.1 hp)
  have h2 := (List.subperm_of_subset (nodup_boardPoints n) h1).length_le
  rw [length_boardPoints] at h2
  have : ((n * n : Nat) : Int) = (n : Int) * n := by push_cast; rfl
  omega

theorem freeLoop_spec {n : Nat} (args : List Str) :
    ∀ {b : Board} (S : List Pt), ReachableBoard n b → (∀ q, b.pos q = if q ∈ S then some .b else none) → S.Nodup →
    (S.length + args.length : Int) < n * n →
    (∀ b', freeLoop n b args = .ok b' → ∃ ps, vertexPoints n args = some ps ∧ ReachableBoard n b' ∧ ps.Nodup ∧ (∀ p ∈ ps, p ∉ S) ∧
      ∀ q, b'.pos q = if q ∈ S ∨ q ∈ ps then some .b else none) ∧
    (∀ o, freeLoop n b args = .error o → Failed o ∧ ∀ ps, vertexPoints n args = some ps → ¬ (ps.Nodup ∧ ∀ p ∈ ps, p ∉ S)) := by
  induction args with
  | nil =>
    intro b S hb hpos hS hlen
    refine ⟨?_, ?_⟩
    · intro b' h; simp only [freeLoop, Except.ok.injEq] at h; subst h
      exact ⟨[], rfl, hb, List.nodup_nil, by simp, by simpa using hpos⟩
    · intro o h; simp [freeLoop] at h
  | cons v vs ih =>
    intro b S hb hpos hS hlen
    simp only [List.length_cons] at hlen
    push_cast at hlen
    unfold freeLoop interpretVertex vertexPoints
    rcases C14_total v n with hv | ⟨p, hv, hp, hn⟩ | hv
    · rw [hv]
      refine ⟨by intro b' h; simp at h, ?_⟩
      intro o h; simp at h; subst h; exact ⟨by rintro ⟨r, h⟩; simp at h, by simp⟩
    · rw [hv]
      simp only
      have hp' : OnBoard n p := by simpa using hp
      have herr := C06_play_errors hb defaultPops p .b
      by_cases hmem : p ∈ S
      · have hne : b.pos p ≠ none := by rw [hpos]; simp [hmem]
        have hpl : b.play p.1 p.2 .b = .error .valueError := herr.2 hp' hne
        rw [hpl]
        refine ⟨by intro b' h; simp at h, ?_⟩
        intro o h; simp at h; subst h
        refine ⟨by rintro ⟨r, h⟩; simp at h, ?_⟩
        intro ps hps
        rcases hvs : vertexPoints n vs with _ | l
        · rw [hvs] at hps; simp at hps
        · rw [hvs] at hps; simp at hps; subst hps
          rintro ⟨_, h2⟩
          exact h2 p (by simp) hmem
      · obtain ⟨e, he1, he2⟩ := exists_free (n := n) (l := p :: S) (by simp only [List.length_cons]; push_cast; omega)
        simp only [List.mem_cons, not_or] at he2
        have hpe : b.pos p = none := by rw [hpos]; simp [hmem]
        obtain ⟨b1, h1, h2, h3⟩ := playAll_spec [p] hb (by intro q _; rw [hpos]; split <;> simp) (by simp)
          (by intro q hq; simp at hq; subst hq; exact ⟨hp', hpe⟩)
        have hpos1 := h3 ⟨e, he1, by rw [hpos]; simp [he2.2], by simp [he2.1]⟩
        obtain ⟨ko, b2, hpl⟩ := play_legal (c := .b) hb hp' hpe
        have hb12 : b2 = b1 := by
          unfold playAll at h1
          rw [hpl] at h1
          simpa [playAll] using h1
        subst hb12
        rw [hpl]
        simp only
        obtain ⟨i1, i2⟩ := ih (b := b2) (p :: S) h2 (by
            intro q; rw [hpos1, hpos]
            by_cases hq : q = p
            · simp [hq]
            · simp [hq]) (List.nodup_cons.2 ⟨hmem, hS⟩) (by simp only [List.length_cons]; push_cast; omega)
        refine ⟨?_, ?_⟩
        · intro b' h
          obtain ⟨ps, j1, j2, j3, j4, j5⟩ := i1 b' h
          refine ⟨p :: ps, by rw [j1], j2, ?_, ?_, ?_⟩
          · refine List.nodup_cons.2 ⟨fun h => ?_, j3⟩
            exact j4 p h (by simp)
          · intro q hq
            simp only [List.mem_cons] at hq
            rcases hq with rfl | hq
            · exact hmem
            · exact fun h => j4 q hq (by simp [h])
          · intro q; rw [j5]
            congr 1
            simp only [List.mem_cons, eq_iff_iff]
            tauto
        · intro o h
          obtain ⟨k1, k2⟩ := i2 o h
          refine ⟨k1, ?_⟩
          intro ps hps
          rcases hvs : vertexPoints n vs with _ | l
          · rw [hvs] at hps; simp at hps
          · rw [hvs] at hps; simp at hps; subst hps
            rintro ⟨m1, m2⟩
            rw [List.nodup_cons] at m1
            refine k2 l hvs ⟨m1.2, ?_⟩
            intro q hq hq'
            simp only [List.mem_cons] at hq'
            rcases hq' with rfl | hq'
            · exact m1.1 hq
            · exact m2 q (by simp [hq]) hq'
    · rw [hv]
      refine ⟨by intro b' h; simp at h, ?_⟩
      intro o h; simp at h; subst h; exact ⟨by rintro ⟨r, h⟩; simp at h, by simp⟩

theorem setFreeHandicap_spec {n : Nat} {s s' : GS} {args : List Str} {o : Outcome} (hi : Inv n s)
    (h : s.setFreeHandicap args = (s', o)) :
    (Failed o ∧ (s' = s ∨ s.board.isEmpty = true ∧ IsReset n s s')) ∨
    (¬ Failed o ∧ ∃ ps, o = .value none ∧ vertexPoints n args = some ps ∧ ps.Nodup ∧ 2 ≤ ps.length ∧ ps.length < n * n ∧
      s.board.isEmpty = true ∧ Placed n s s' ps.length ps) := by
  unfold GS.setFreeHandicap err exc at h
  simp only at h
  split at h
  · left; cases h; exact ⟨by rintro ⟨r, h⟩; simp at h, .inl rfl⟩
  · rename_i hrange
    rw [hi.size] at hrange
    simp only [not_not, Handicap.maxFree] at hrange
    split at h
    · left; cases h; exact ⟨by rintro ⟨r, h⟩; simp at h, .inl rfl⟩
    · rename_i he
      have he : s.board.isEmpty = true := by simpa using he
      have hpos := empty_pos hi.board he
      obtain ⟨f1, f2⟩ := freeLoop_spec args [] hi.board (by simpa using hpos) List.nodup_nil (by simp; omega)
      rw [← hi.size] at f1 f2
      split at h
      · rename_i o' ho
        obtain ⟨s1, h3, h4⟩ := reset_spec hi.size hi.two
        rw [h3] at h
        cases h
        exact .inl ⟨(f2 _ ho).1, .inr ⟨he, h4⟩⟩
      · rename_i b hb
        obtain ⟨ps, j1, j2, j3, _, j5⟩ := f1 b hb
        have hlen : ps.length = args.length := by
          have : ∀ (l : List Str) ps, vertexPoints n l = some ps → ps.length = l.length := by
            intro l
            induction l with
            | nil => intro ps h; simp [vertexPoints] at h; simp [← h]
            | cons v vs ih =>
              intro ps h
              unfold vertexPoints at h
              split at h
              · rename_i p l' _ hl'
                simp at h; subst h
                simp [ih _ hl']
              · simp at h
          exact this _ _ j1
        cases h
        refine .inr ⟨failed_value, ps, rfl, j1, j3, by omega, ?_, he, ⟨b, ?_⟩, ?_, ?_⟩
        · have : ((n * n : Nat) : Int) = (n : Int) * n := by push_cast; rfl
          omega
        · rw [hlen]; rfl
        · intro q; have := j5 q; simp only [List.not_mem_nil, false_or] at this; exact this
        · exact ⟨hi.size, hi.two, hi.acc, j2, none, none, rfl, .inl rfl, fun _ => rfl⟩

theorem Inv.snoc_stone {n : Nat} {s : GS} (hi : Inv n s) {m : HistMove} {row col : Int} {ko : Option Pt} {b : Board}
    (hm : m.move = some (row, col)) (hp : s.board.play row col m.colour = .ok (ko, b)) :
    Inv n { s with koPoint := ko, koPlayer := some m.colour.opponent, board := b, history := s.history ++ [m] } := by
  obtain ⟨k, pl, h1, h2, h3⟩ := hi.rep
  refine ⟨hi.size, hi.two, hi.acc, hi.base, ko, some m.colour.opponent, ?_, .inr ⟨rfl, rfl⟩, fun _ => rfl⟩
  simp only
  rw [replayK_append h1]
  simp [replayK, hm, hp]

theorem Inv.snoc_pass {n : Nat} {s : GS} (hi : Inv n s) {m : HistMove} {k : Option Pt}
    (hm : m.move = none) (hk : k = none ∨ k = s.koPoint) :
    Inv n { s with koPoint := k, history := s.history ++ [m] } := by
  obtain ⟨ko, pl, h1, h2, h3⟩ := hi.rep
  refine ⟨hi.size, hi.two, hi.acc, hi.base, ko, pl, ?_, ?_, ?_⟩
  · simp only
    rw [replayK_append h1]
    simp [replayK, hm]
  · simp only
    rcases hk with rfl | rfl
    · exact .inl rfl
    · exact h2
  · intro h
    exfalso; apply h
    exact ⟨mvs s.history, m.colour, by simp [mvs, hm]⟩

/-- The effect of a move. -/
structure Moved (n : Nat) (s s' : GS) (m : HistMove) : Prop where
  hist : s'.history = s.history ++ [m]
  frame : s' = { s with board := s'.board, koPoint := s'.koPoint, koPlayer := s'.koPlayer, history := s'.history }
  inv : Inv n s'

theorem play_spec {n : Nat} {s s' : GS} {args : List Str} {o : Outcome} (hi : Inv n s)
    (h : s.play args = (s', o)) :
    (Failed o ∧ s' = s) ∨ (o = .value none ∧ ∃ c v r col m, args = c :: v :: r ∧ interpretColour c = some col ∧
      moveFromVertex v n = .ok m ∧ Moved n s s' { colour := col, move := m }) := by
  unfold GS.play err exc at h
  split at h
  · rename_i cs vs rest
    split at h
    · left; cases h; exact ⟨by rintro ⟨r, h⟩; simp at h, rfl⟩
    · rename_i colour hc
      unfold interpretVertex at h
      split at h
      · left; cases h; exact ⟨by rintro ⟨r, h⟩; simp at h, rfl⟩
      · rename_i hv
        split at hv
        · rename_i m hm
          simp at hv; subst hv
          cases h
          refine .inr ⟨rfl, cs, vs, rest, colour, none, rfl, hc, by rw [← hi.size]; exact hm, rfl, rfl, ?_⟩
          exact hi.snoc_pass (m := { colour := colour, move := none }) rfl (.inl rfl)
        · simp at hv
      · rename_i row col hv
        split at hv
        · rename_i m hm
          simp at hv; subst hv
          split at h
          · left; cases h; exact ⟨by rintro ⟨r, h⟩; simp at h, rfl⟩
          · left; cases h; exact ⟨by rintro ⟨r, h⟩; simp at h, rfl⟩
          · rename_i ko b hp
            cases h
            refine .inr ⟨rfl, cs, vs, rest, colour, _, rfl, hc, by rw [← hi.size]; exact hm, rfl, rfl, ?_⟩
            exact hi.snoc_stone (m := { colour := colour, move := some (row, col) }) rfl hp
        · simp at hv
  · left; cases h; exact ⟨by rintro ⟨r, h⟩; simp at h, rfl⟩

theorem genmove_spec {n : Nat} {env : Env} {s s' : GS} {args : List Str} {fr ac : Bool} {o : Outcome} (hi : Inv n s)
    (h : s.handleGenmove env args fr ac = (s', o)) :
    s' = s ∨ (¬ Failed o ∧ fr = false ∧ ∃ m, Moved n s s' m) := by
  unfold GS.handleGenmove err exc at h
  split at h
  · left; cases h; rfl
  · split at h
    · left; cases h; rfl
    · rename_i colour hc
      split at h
      · left; cases h; rfl
      · rename_i g hg
        split at h
        · left; cases h; rfl
        · split at h
          · left; cases h; rfl
          · split at h
            · cases fr
              · simp at h
                obtain ⟨rfl, rfl⟩ := h
                refine .inr ⟨failed_value, rfl, { colour := colour, move := none, comments := g.comments, cookie := g.cookie }, rfl, rfl, ?_⟩
                exact hi.snoc_pass (m := { colour := colour, move := none, comments := g.comments, cookie := g.cookie }) rfl (.inr rfl)
              · left; simp at h; exact h.1.symm
            · split at h
              · left; cases h; rfl
              · rename_i row col _
                split at h
                · left; cases h; rfl
                · split at h
                  · left; cases h; rfl
                  · split at h
                    · left; cases h; rfl
                    · left; cases h; rfl
                    · rename_i ko b hp
                      cases h
                      refine .inr ⟨failed_value, by simpa using ‹¬ fr = true›, { colour := colour, move := some (row, col), comments := g.comments, cookie := g.cookie }, rfl, rfl, ?_⟩
                      exact hi.snoc_stone (m := { colour := colour, move := some (row, col), comments := g.comments, cookie := g.cookie }) rfl hp

theorem replayK_allLegal_prefix {n : Nat} {b0 : Board} {l r : List HistMove} {x}
    (h : replayK b0 none none (l ++ r) = .ok x) : ∃ b ko pl, replayK b0 none none l = .ok (b, ko, pl) := by
  obtain ⟨⟨b, ko, pl⟩, h⟩ := replayK_take h
  exact ⟨b, ko, pl, h⟩

theorem undo_spec {n : Nat} {s : GS} {args : List Str} (hi : Inv n s) :
    (s.history = [] ∧ s.undo args = (s, .gtpError "cannot undo".toList)) ∨
    (∃ l m b ko pl, s.history = l ++ [m] ∧ replayK s.base none none l = .ok (b, ko, pl) ∧
      s.undo args = ({ s with board := b, koPoint := ko, koPlayer := pl, history := l }, .value none) ∧
      Inv n { s with board := b, koPoint := ko, koPlayer := pl, history := l }) := by
  rcases List.eq_nil_or_concat s.history with h | ⟨l, m, h⟩
  · left; refine ⟨h, ?_⟩; unfold GS.undo; rw [if_pos h]; rfl
  · right
    rw [List.concat_eq_append] at h
    obtain ⟨ko, pl, h1, h2, h3⟩ := hi.rep
    rw [h] at h1
    obtain ⟨⟨b, ko', pl'⟩, h4⟩ := replayK_take h1
    refine ⟨l, m, b, ko', pl', h, h4, ?_, ⟨hi.size, hi.two, hi.acc, hi.base, ko', pl', h4, .inr ⟨rfl, rfl⟩, fun _ => rfl⟩⟩
    unfold GS.undo
    rw [if_neg (by rw [h]; simp), h, List.dropLast_concat, resetToMoves_ok h4]

/-! ### loadsgf -/

theorem collectMoves_onBoard {size : Int} (seq : List Sgf.PropMap) :
    ∀ plays, Sgf.collectMoves size seq = .ok plays → ∀ m ∈ plays, ∀ p, m.2 = some p → OnBoard size.toNat p := by
  induction seq with
  | nil => intro plays h; simp [Sgf.collectMoves] at h; subst h; simp
  | cons m rest ih =>
    intro plays h
    unfold Sgf.collectMoves at h
    simp only [bind, Except.bind, pure, Except.pure] at h
    split at h
    · simp [throw, throwThe, MonadExceptOf.throw] at h
    · skip
      split at h
      · simp at h
      · split at h
        · exact ih plays h
        · rename_i c raw _
          split at h
          · simp at h
          · rename_i mv hmv
            split at h
            · simp at h
            · rename_i r hr
              simp at h; subst h
              intro x hx p hp
              simp only [List.mem_cons] at hx
              rcases hx with rfl | hx
              · simp only at hp; subst hp
                rcases Sgf.C22_interpret_total raw size with ⟨h', _⟩ | ⟨p', h', hb, _⟩ | h'
                · rw [h'] at hmv; simp at hmv
                · rw [h'] at hmv; simp at hmv; subst hmv
                  unfold Sgf.OnBoard at hb; unfold OnBoard; omega
                · rw [h'] at hmv; simp at hmv
              · exact ih r hr x hx p hp

theorem setupAndMoves_spec {size : Int} {seq : List Sgf.PropMap} {b : Board} {plays : List (Colour × Option Pt)}
    (h : Sgf.getSetupAndMoves size seq = .ok (b, plays)) :
    ReachableBoard size.toNat b ∧ ∀ m ∈ plays, ∀ p, m.2 = some p → OnBoard size.toNat p := by
  unfold Sgf.getSetupAndMoves at h
  simp only [bind, Except.bind, pure, Except.pure] at h
  split at h
  · simp at h
  · rename_i b0 hb0
    split at h
    · simp [throw, throwThe, MonadExceptOf.throw] at h
    · rename_i root below
      split at h
      · simp at h
      · rename_i st _
        obtain ⟨ab, aw, ae⟩ := st
        simp only at h
        split at h
        · split at h
          · simp at h
          · rename_i lb hlb
            obtain ⟨legal, b1⟩ := lb
            simp only at h
            split at h
            · simp [throw, throwThe, MonadExceptOf.throw] at h
            · skip
              split at h
              · simp at h
              · split at h
                · simp [throw, throwThe, MonadExceptOf.throw] at h
                · skip
                  split at h
                  · simp at h
                  · rename_i pl hpl
                    simp at h; obtain ⟨rfl, rfl⟩ := h
                    exact ⟨setup_reachable (init_reachable hb0) hlb, collectMoves_onBoard _ _ hpl⟩
        · split at h
          · simp at h
          · rename_i pl hpl
            simp at h; obtain ⟨rfl, rfl⟩ := h
            exact ⟨init_reachable hb0, collectMoves_onBoard _ _ hpl⟩

/-- What a failing loadsgf may change. -/
def OnlySizeAndKo (s s' : GS) : Prop :=
  s' = { s with boardSize := s'.boardSize, koPoint := s'.koPoint, koPlayer := s'.koPlayer } ∧
  (s'.koPoint = s.koPoint ∧ s'.koPlayer = s.koPlayer ∨
    ∃ ko pl, replayK s.base none none s.history = .ok (s.board, ko, pl) ∧ s'.koPoint = ko ∧ s'.koPlayer = pl)

theorem OnlySizeAndKo.size (s : GS) (k : Int) : OnlySizeAndKo s { s with boardSize := k } := ⟨rfl, .inl ⟨rfl, rfl⟩⟩

/-- The state represents the game. -/
def Loaded (env : Env) (mn : Option Int) (g : Sgf.SgfGame) (s' : GS) : Prop :=
  s'.boardSize = g.size ∧
  (∃ komi, g.getKomi env.readFloat = .ok komi ∧ s'.komi = max (-625) (min 625 komi)) ∧
  (s'.handicap = none ∧ (g.getHandicap = .error .valueError ∨ g.getHandicap = .ok none) ∨
    ∃ h, s'.handicap = some h ∧ g.getHandicap = .ok (some h)) ∧
  ∃ plays, Sgf.getSetupAndMoves g.size g.tree.mainSequence = .ok (s'.base, plays) ∧
    s'.moves = match mn with
      | none => plays
      | some k => plays.take (k - 1).toNat

theorem clampKomi_eq (f : Rat) : clampKomi f = max (-625) (min 625 f) := by
  unfold clampKomi
  split
  · rw [max_eq_left]; exact le_of_lt (lt_of_le_of_lt (min_le_right _ _) ‹_›)
  · rename_i h1
    split
    · rename_i h2; rw [min_eq_left (le_of_lt h2)]; rw [max_eq_right]; norm_num
    · rename_i h2; rw [min_eq_right (not_lt.1 h2), max_eq_right (not_lt.1 h1)]

theorem ignoreBad_spec {r : Except Exc (Option Int)} {h : Option Int} (hr : ignoreBadHandicap r = .ok h) :
    h = none ∧ (r = .error .valueError ∨ r = .ok none) ∨ ∃ k, h = some k ∧ r = .ok (some k) := by
  unfold ignoreBadHandicap at hr
  split at hr
  · simp at hr; exact .inl ⟨hr.symm, .inl rfl⟩
  · subst hr
    cases h with
    | none => exact .inl ⟨rfl, .inr rfl⟩
    | some k => exact .inr ⟨k, rfl, rfl⟩

theorem mvs_beforeMove (mn : Option Int) (plays : List (Colour × Option Pt)) :
    mvs (beforeMove mn (List.map (fun p : Colour × Option Pt => ({ colour := p.1, move := p.2 } : HistMove)) plays)) =
      match mn with
      | none => plays
      | some k => plays.take (k - 1).toNat := by
  have h : mvs (List.map (fun p : Colour × Option Pt => ({ colour := p.1, move := p.2 } : HistMove)) plays) = plays := by
    unfold mvs; rw [List.map_map]; conv => rhs; rw [← List.map_id plays]
    rfl
  unfold beforeMove
  cases mn with
  | none => exact h
  | some k =>
    simp only
    have hk : (max 0 (k - 1)).toNat = (k - 1).toNat := by omega
    rw [hk]
    conv => rhs; rw [← h]
    unfold mvs
    rw [List.map_take]

theorem loadGame_spec {n : Nat} {env : Env} {s s' : GS} {mn : Option Int} {g : Sgf.SgfGame} {o : Outcome} (hi : Inv n s)
    (h : s.loadGame env mn g = (s', o)) :
    (Failed o ∧ OnlySizeAndKo s s' ∧ (s'.boardSize = s.boardSize ∨ s'.boardSize = g.size)) ∨
    (¬ Failed o ∧ (∃ n', Inv n' s') ∧ Loaded env mn g s') := by
  unfold GS.loadGame err exc at h
  split at h
  · left; cases h; exact ⟨by rintro ⟨r, h⟩; simp at h, OnlySizeAndKo.size s s.boardSize, .inl rfl⟩
  · rename_i hacc
    have h2 := hi.acc g.size (by simpa using hacc)
    simp only at h
    split at h
    · left; cases h; exact ⟨by rintro ⟨r, h⟩; simp at h, OnlySizeAndKo.size s _, .inr rfl⟩
    · left; cases h; exact ⟨by rintro ⟨r, h⟩; simp at h, OnlySizeAndKo.size s _, .inr rfl⟩
    · rename_i komi _
      split at h
      · left; cases h; exact ⟨by rintro ⟨r, h⟩; simp at h, OnlySizeAndKo.size s _, .inr rfl⟩
      · rename_i handicap _
        split at h
        · left; cases h; exact ⟨by rintro ⟨r, h⟩; simp at h, OnlySizeAndKo.size s _, .inr rfl⟩
        · left; cases h; exact ⟨by rintro ⟨r, h⟩; simp at h, OnlySizeAndKo.size s _, .inr rfl⟩
        · rename_i board plays hsm
          obtain ⟨hb, hpl⟩ := setupAndMoves_spec hsm
          generalize hnh : beforeMove mn (List.map (fun p : Colour × Option Pt => ({ colour := p.1, move := p.2 } : HistMove)) plays) = newh at h
          have hnew : ∀ m ∈ newh, ∀ p, m.move = some p → OnBoard g.size.toNat p := by
            have hsub : ∀ m ∈ newh, m ∈ List.map (fun p : Colour × Option Pt => ({ colour := p.1, move := p.2 } : HistMove)) plays := by
              subst hnh
              unfold beforeMove
              split
              · exact fun m hm => hm
              · exact fun m hm => List.mem_of_mem_take hm
            intro m hm p hp
            obtain ⟨x, hx, rfl⟩ := List.mem_map.1 (hsub m hm)
            exact hpl x hx p hp
          rcases hr : replayK board none none newh with e | ⟨b, ko, pl⟩
          · have he := replayK_error hb newh none none hnew hr
            subst he
            obtain ⟨b1, k1, hreset⟩ := resetToMoves_error
              (s := GS.setHistoryBase { s with boardSize := g.size } board) (l := newh) hr
            rw [hreset] at h
            simp only at h
            obtain ⟨ko, pl, hrep, hk1, hk2⟩ := hi.rep
            rw [resetToMoves_ok (s := GS.setHistoryBase _ s.base) (l := s.history) hrep] at h
            cases h
            left
            exact ⟨by rintro ⟨r, h⟩; simp at h, ⟨rfl, .inr ⟨ko, pl, hrep, rfl, rfl⟩⟩, .inr rfl⟩
          · rw [resetToMoves_ok (s := GS.setHistoryBase { s with boardSize := g.size } board) (l := newh) hr] at h
            cases h
            refine .inr ⟨failed_value, ⟨g.size.toNat, ?_, by omega, hi.acc, hb, ko, pl, hr, .inr ⟨rfl, rfl⟩, fun _ => rfl⟩, rfl,
              ⟨komi, ‹_›, clampKomi_eq komi⟩, ignoreBad_spec ‹_›, plays, hsm, ?_⟩
            · simp only [GS.setHistoryBase]; omega
            · rw [← mvs_beforeMove mn plays, hnh]; rfl

theorem loadsgf_spec {n : Nat} {env : Env} {s s' : GS} {args : List Str} {o : Outcome} (hi : Inv n s)
    (h : s.loadsgf env args = (s', o)) :
    (Failed o ∧ OnlySizeAndKo s s' ∧ (s'.boardSize = s.boardSize ∨ ∃ path rest text game, args = path :: rest ∧ env.file path = some text ∧
      Sgf.SgfGame.fromString env.codec text = .ok game ∧ s'.boardSize = game.size)) ∨
    (¬ Failed o ∧ (∃ n', Inv n' s') ∧ ∃ path rest text mn game, args = path :: rest ∧ env.file path = some text ∧
      Sgf.SgfGame.fromString env.codec text = .ok game ∧
      (rest = [] ∧ mn = none ∨ ∃ a r k, rest = a :: r ∧ interpretInt a = some k ∧ mn = some k) ∧ Loaded env mn game s') := by
  have hself : OnlySizeAndKo s s := OnlySizeAndKo.size s s.boardSize
  unfold GS.loadsgf err exc at h
  split at h
  · left; cases h; exact ⟨by rintro ⟨r, h⟩; simp at h, hself, .inl rfl⟩
  · split at h
    · left; cases h; exact ⟨by rintro ⟨r, h⟩; simp at h, hself, .inl rfl⟩
    · rename_i path rest _ mn hmn
      split at h
      · left; cases h; exact ⟨by rintro ⟨r, h⟩; simp at h, hself, .inl rfl⟩
      · rename_i text htext
        split at h
        · left; cases h; exact ⟨by rintro ⟨r, h⟩; simp at h, hself, .inl rfl⟩
        · left; cases h; exact ⟨by rintro ⟨r, h⟩; simp at h, hself, .inl rfl⟩
        · rename_i game hg
          rcases loadGame_spec hi h with ⟨h1, h2, h3⟩ | h1
          · left
            refine ⟨h1, h2, ?_⟩
            rcases h3 with h3 | h3
            · exact .inl h3
            · exact .inr ⟨_, _, text, game, rfl, htext, hg, h3⟩
          · refine .inr ⟨h1.1, h1.2.1, path, rest, text, mn, game, rfl, htext, hg, ?_, h1.2.2⟩
            cases rest with
            | nil => simp at hmn; exact .inl ⟨rfl, hmn.symm⟩
            | cons a r =>
              simp at hmn
              obtain ⟨k, hk, rfl⟩ := hmn
              exact .inr ⟨a, r, k, rfl, hk, rfl⟩

theorem OnlySizeAndKo.inv {n : Nat} {s s' : GS} (hi : Inv n s) (h : OnlySizeAndKo s s') (hs : s'.boardSize = s.boardSize) :
    Inv n s' := by
  obtain ⟨h1, h2⟩ := h
  rw [h1]
  refine ⟨by simp only; rw [hs, hi.size], hi.two, hi.acc, hi.base, ?_⟩
  simp only
  rcases h2 with ⟨h2, h3⟩ | ⟨ko, pl, h2, h3, h4⟩
  · rw [h2, h3]; exact hi.rep
  · exact ⟨ko, pl, h2, .inr ⟨h3, h4⟩, fun _ => h3⟩

/-! ### all commands -/

theorem timeLeft_spec {n : Nat} {s s' : GS} {args : List Str} {o : Outcome} (hi : Inv n s)
    (h : s.timeLeft args = (s', o)) : (Failed o ∧ s' = s) ∨ (¬ Failed o ∧ ∃ n', Inv n' s') := by
  unfold GS.timeLeft err at h
  split at h
  · split at h
    · cases h
      exact .inr ⟨failed_value, n, hi.size, hi.two, hi.acc, hi.base, hi.rep⟩
    · left; cases h; exact ⟨by rintro ⟨r, h⟩; simp at h, rfl⟩
  · left; cases h; exact ⟨by rintro ⟨r, h⟩; simp at h, rfl⟩

theorem setTime_spec {n : Nat} {s s' : GS} {args : List Str} {o : Outcome} (hi : Inv n s)
    (h : s.setTime args = (s', o)) : (Failed o ∧ s' = s) ∨ (¬ Failed o ∧ ∃ n', Inv n' s') := by
  unfold GS.setTime err at h
  split at h
  · split at h
    · cases h
      exact .inr ⟨failed_value, n, hi.size, hi.two, hi.acc, hi.base, hi.rep⟩
    · left; cases h; exact ⟨by rintro ⟨r, h⟩; simp at h, rfl⟩
  · left; cases h; exact ⟨by rintro ⟨r, h⟩; simp at h, rfl⟩

theorem explain_spec {s s' : GS} {args : List Str} {o : Outcome} 
    (h : s.explainLastMove args = (s', o)) : ¬ Failed o ∧ s' = s := by
  unfold GS.explainLastMove at h
  split at h <;> (cases h; exact ⟨failed_value, rfl⟩)

theorem genmoveEx_spec {n : Nat} {env : Env} {s s' : GS} {args : List Str} {o : Outcome} (hi : Inv n s)
    (h : s.genmoveEx env args = (s', o)) : s' = s ∨ (¬ Failed o ∧ ∃ m, Moved n s s' m) := by
  unfold GS.genmoveEx at h
  split at h
  · left; cases h; rfl
  · rcases genmove_spec hi h with h | ⟨h1, _, h2⟩
    · exact .inl h
    · exact .inr ⟨h1, h2⟩

/-- The effect of any command on a state satisfying the invariant. -/
theorem step_spec {n : Nat} {env : Env} {s s' : GS} {c : Cmd} {args : List Str} {o : Outcome} (hi : Inv n s)
    (h : s.step env c args = (s', o)) :
    (¬ Failed o ∧ ∃ n', Inv n' s') ∨
    (Failed o ∧ (s' = s ∨ (c = .setFreeHandicap ∧ s.board.isEmpty = true ∧ IsReset n s s') ∨
      (c = .loadsgf ∧ OnlySizeAndKo s s'))) := by
  have hgen : s' = s ∨ (¬ Failed o ∧ ∃ m, Moved n s s' m) → _ := fun h => (show
      (¬ Failed o ∧ ∃ n', Inv n' s') ∨ (Failed o ∧ s' = s) by
    rcases h with rfl | ⟨h1, m, h2⟩
    · by_cases hf : Failed o
      · exact .inr ⟨hf, rfl⟩
      · exact .inl ⟨hf, n, hi⟩
    · exact .inl ⟨h1, n, h2.inv⟩)
  have hput : (¬ Failed o ∧ ∃ n', Inv n' s') ∨ (Failed o ∧ s' = s) → _ := fun h => (show
      (¬ Failed o ∧ ∃ n', Inv n' s') ∨
    (Failed o ∧ (s' = s ∨ (c = .setFreeHandicap ∧ s.board.isEmpty = true ∧ IsReset n s s') ∨
      (c = .loadsgf ∧ OnlySizeAndKo s s'))) by
    rcases h with h | ⟨h1, h2⟩
    · exact .inl h
    · exact .inr ⟨h1, .inl h2⟩)
  cases c <;> simp only [GS.step] at h
  · exact hput (boardsize_spec hi h).symm
  · exact hput (clearBoard_spec hi h).symm
  · exact hput (setKomi_spec hi h).symm
  · apply hput
    rcases fixedHandicap_spec hi h with h | ⟨h1, _, _, _, _, _, _, _, _, _, _, _, h2⟩
    · exact .inr h
    · exact .inl ⟨h1, n, h2.inv⟩
  · rcases setFreeHandicap_spec hi h with ⟨h1, h2 | h2⟩ | ⟨h1, _, _, _, _, _, _, _, h2⟩
    · exact .inr ⟨h1, .inl h2⟩
    · exact .inr ⟨h1, .inr (.inl ⟨rfl, h2⟩)⟩
    · exact .inl ⟨h1, n, h2.inv⟩
  · apply hput
    rcases placeFreeHandicap_spec hi h with h | ⟨h1, _, _, _, _, _, _, _, _, _, _, _, _, _, _, _, h2⟩
    · exact .inr h
    · exact .inl ⟨h1, n, h2.inv⟩
  · apply hput
    rcases play_spec hi h with h | ⟨h1, _, _, _, _, _, _, _, _, h2⟩
    · exact .inr h
    · exact .inl ⟨by rw [h1]; exact failed_value, n, h2.inv⟩
  · apply hput; apply hgen
    rcases genmove_spec hi h with h | ⟨h1, _, h2⟩
    · exact .inl h
    · exact .inr ⟨h1, h2⟩
  · exact hput (hgen (genmoveEx_spec hi h))
  · apply hput; apply hgen
    rcases genmove_spec hi h with h | ⟨h1, _, h2⟩
    · exact .inl h
    · exact .inr ⟨h1, h2⟩
  · apply hput
    rcases undo_spec (args := args) hi with ⟨_, h'⟩ | ⟨l, m, b, ko, pl, _, _, h', h''⟩
    · rw [h'] at h; cases h; exact .inr ⟨by rintro ⟨r, h⟩; simp at h, rfl⟩
    · rw [h'] at h; cases h; exact .inl ⟨failed_value, n, h''⟩
  · rcases loadsgf_spec hi h with ⟨h1, h2, _⟩ | ⟨h1, h2, _⟩
    · exact .inr ⟨h1, .inr (.inr ⟨rfl, h2⟩)⟩
    · exact .inl ⟨h1, h2⟩
  · exact hput (timeLeft_spec hi h).symm
  · exact hput (setTime_spec hi h).symm
  · obtain ⟨h1, rfl⟩ := explain_spec h
    exact .inl ⟨h1, n, hi⟩

theorem init_inv {acceptable : List Int} {s : GS} (h : GS.init acceptable = .ok s) : ∃ n, Inv n s := by
  unfold GS.init at h
  simp only [bind, Except.bind, pure, Except.pure] at h
  split at h
  · simp at h
  · rename_i size hsize
    split at h
    · simp at h
    · rename_i b hb
      simp at h; subst h
      have h2 : 2 ≤ size.toNat := by
        by_contra hlt
        unfold Board.init at hb
        rw [if_pos (by omega)] at hb; simp at hb
      have hmin := List.min?_eq_some_iff.1 hsize
      refine ⟨size.toNat, by simp; omega, h2, ?_, init_reachable hb, none, none, rfl, .inl rfl, fun _ => rfl⟩
      intro x hx
      have := hmin.2 x hx
      omega

theorem Reached.inv {env : Env} {acceptable : List Int} {s : GS} (h : Reached env acceptable s) : ∃ n, Inv n s := by
  induction h with
  | start h => exact init_inv h
  | step _ hstep hsize ih =>
    obtain ⟨n, hi⟩ := ih
    rcases step_spec hi hstep with ⟨_, h⟩ | ⟨hf, h | ⟨_, _, h⟩ | ⟨_, h⟩⟩
    · exact h
    · rw [h]; exact ⟨n, hi⟩
    · exact ⟨n, h.inv hi.size hi.two hi.acc⟩
    · exact ⟨n, h.inv hi (hsize hf)⟩

/-! ## C34 -/

/-- C34: the board is the position obtained by replaying the move history, by the rules of go, from the base position (which is
a legal position); all the stones in the history were played on empty points. -/
theorem C34_board_is_replay {env : Env} {acceptable : List Int} {s : GS} (h : Reached env acceptable s) :
    ∃ n : Nat, s.boardSize = n ∧ ReachableBoard n s.base ∧ ReachableBoard n s.board ∧
      AllLegal n s.base.pos s.moves ∧ s.board.pos = replay n s.base.pos s.moves := by
  obtain ⟨n, hi⟩ := h.inv
  obtain ⟨ko, pl, h1, _⟩ := hi.rep
  obtain ⟨i1, i2, i3, _⟩ := replayK_rules hi.base s.history _ _ _ h1
  exact ⟨n, hi.size, hi.base, i1, i3, i2⟩

/-- C34: when the last move of the history (if any) was a stone, the ko point the move generator is told of is the one the
rules give. -/
theorem C34_ko {env : Env} {acceptable : List Int} {s : GS} (h : Reached env acceptable s) (hp : ¬ EndsWithPass s.moves) (n : Nat)
    (hn : s.boardSize = n) (c : Colour) (fr : Bool) (p : Pt) :
    (s.gameState c fr).koPoint = some p ↔ KoOfLastStone n s.base.pos s.moves p c := by
  obtain ⟨m, hi⟩ := h.inv
  have : n = m := by have := hi.size; omega
  subst this
  obtain ⟨ko, pl, h1, h2, h3⟩ := hi.rep
  have h3 := h3 hp
  obtain ⟨_, _, _, i4, i5⟩ := replayK_rules hi.base s.history _ _ _ h1
  show _ ↔ KoOfLastStone n s.base.pos (mvs s.history) p c
  rw [← i4 p c]
  unfold GS.gameState
  simp only
  rcases h2 with h2 | ⟨_, h2⟩
  · rw [h2]; rw [h2] at h3; rw [← h3]; simp
  · rw [h3, h2]
    cases ko with
    | none => simp
    | some k =>
      by_cases hpl : pl = some c <;> simp [hpl]

/-- C34: in any case, a ko point the move generator is told of was left by the last stone played (the code may still report it
after a pass: see `C34_ko_after_genmove_pass`). -/
theorem C34_ko_sound {env : Env} {acceptable : List Int} {s : GS} (h : Reached env acceptable s) (n : Nat)
    (hn : s.boardSize = n) (c : Colour) (fr : Bool) (p : Pt) (hk : (s.gameState c fr).koPoint = some p) :
    KoOfLastStone n s.base.pos s.moves p c := by
  obtain ⟨m, hi⟩ := h.inv
  have : n = m := by have := hi.size; omega
  subst this
  obtain ⟨ko, pl, h1, h2, h3⟩ := hi.rep
  obtain ⟨_, _, _, i4, i5⟩ := replayK_rules hi.base s.history _ _ _ h1
  show KoOfLastStone n s.base.pos (mvs s.history) p c
  rw [← i4 p c]
  unfold GS.gameState at hk
  simp only at hk
  split at hk
  · rename_i hc
    rcases h2 with h2 | ⟨h2, h2'⟩
    · exact absurd h2 hc.1
    · exact ⟨by rw [← h2]; exact hk, by rw [← h2']; exact hc.2⟩
  · simp at hk

/-- C34: undo takes back the last move, and does nothing else; it fails if there is none. -/
theorem C34_undo {env : Env} {acceptable : List Int} {s : GS} (h : Reached env acceptable s) (args : List Str) :
    (s.history = [] ∧ s.step env .undo args = (s, .gtpError "cannot undo".toList)) ∨
    ∃ (l : List HistMove) (m : HistMove) (s' : GS) (n : Nat), s.history = l ++ [m] ∧ s.step env .undo args = (s', .value none) ∧
      s'.history = l ∧ s.boardSize = n ∧ s'.board.pos = replay n s.base.pos (l.map (fun m => (m.colour, m.move))) ∧
      s' = { s with board := s'.board, koPoint := s'.koPoint, koPlayer := s'.koPlayer, history := l } := by
  obtain ⟨n, hi⟩ := h.inv
  rcases undo_spec (args := args) hi with h | ⟨l, m, b, ko, pl, h1, h2, h3, h4⟩
  · exact .inl h
  · exact .inr ⟨l, m, _, n, h1, h3, rfl, hi.size, (replayK_rules hi.base l _ _ _ h2).2.1, rfl⟩

/-- C34: play: the move is added to the history, or the command fails. -/
theorem C34_play {env : Env} {acceptable : List Int} {s s' : GS} (h : Reached env acceptable s) {args : List Str} {o : Outcome}
    (hs : s.step env .play args = (s', o)) :
    (Failed o ∧ s' = s) ∨ (o = .value none ∧ ∃ c v r col m, args = c :: v :: r ∧ interpretColour c = some col ∧
      moveFromVertex v s.boardSize = .ok m ∧ s'.history = s.history ++ [{ colour := col, move := m }] ∧
      s' = { s with board := s'.board, koPoint := s'.koPoint, koPlayer := s'.koPlayer, history := s'.history }) := by
  obtain ⟨n, hi⟩ := h.inv
  rcases play_spec hi hs with h | ⟨h1, c, v, r, col, m, h2, h3, h4, h5⟩
  · exact .inl h
  · exact .inr ⟨h1, c, v, r, col, m, h2, h3, by rw [hi.size]; exact h4, h5.hist, h5.frame⟩

/-- C34: undo is the inverse of playing or generating a move: the history, the position, everything the move generator is told
of, and all the rest are as before; except that, if the history ended with a pass, an old ko point may reappear
(see `C34_ko_after_undo`). -/
theorem C34_undo_inverse {env : Env} {acceptable : List Int} {s s1 : GS} (h : Reached env acceptable s) {c : Cmd} {args args' : List Str}
    {o : Outcome} (hc : c = .play ∨ c = .genmove ∨ c = .genmoveEx) (hs : s.step env c args = (s1, o)) (hne : s1.history ≠ s.history) :
    ∃ s2, s1.step env .undo args' = (s2, .value none) ∧
      s2 = { s with koPoint := s2.koPoint, koPlayer := s2.koPlayer } ∧
      (¬ EndsWithPass s.moves → ∀ c fr, s2.gameState c fr = s.gameState c fr) := by
  obtain ⟨n, hi⟩ := h.inv
  have hm : ∃ m, Moved n s s1 m := by
    rcases hc with rfl | rfl | rfl
    · rcases play_spec hi hs with ⟨_, rfl⟩ | ⟨_, _, _, _, _, _, _, _, _, h⟩
      · exact absurd rfl hne
      · exact ⟨_, h⟩
    · rcases genmove_spec hi hs with rfl | ⟨_, _, h⟩
      · exact absurd rfl hne
      · exact h
    · rcases genmoveEx_spec hi hs with rfl | ⟨_, h⟩
      · exact absurd rfl hne
      · exact h
  obtain ⟨m, hm⟩ := hm
  have hbase : s1.base = s.base := by rw [hm.frame]
  rcases undo_spec (args := args') hm.inv with ⟨h0, _⟩ | ⟨l, m', b, ko, pl, h1, h2, h3, _⟩
  · rw [hm.hist] at h0; simp at h0
  · rw [hm.hist] at h1
    obtain ⟨h4, h5⟩ := List.append_inj' h1 rfl
    subst h4
    obtain ⟨ko', pl', h6, h7, h8⟩ := hi.rep
    rw [hbase, h6] at h2
    cases h2
    have heq : { s1 with board := s.board, koPoint := ko, koPlayer := pl, history := s.history } = { s with koPoint := ko, koPlayer := pl } := by
      rw [hm.frame]
    refine ⟨_, h3, by rw [heq], ?_⟩
    intro hp c fr
    have h8 := h8 hp
    rw [heq]
    unfold GS.gameState
    simp only [GameState.mk.injEq, true_and, and_true]
    rw [h8]
    rcases h7 with h7 | ⟨_, h7⟩
    · rw [h7] at h8; rw [← h8]; simp
    · rw [h7]

/-- C34: fixed_handicap: it succeeds when the board is empty and there is a layout for the number of stones; the board then has
the handicap stones and no others, and the history is empty. -/
theorem C34_fixed_handicap {env : Env} {acceptable : List Int} {s s' : GS} (h : Reached env acceptable s) {args : List Str} {o : Outcome}
    (hs : s.step env .fixedHandicap args = (s', o)) :
    (Failed o ∧ s' = s) ∨ ∃ a r k l t, args = a :: r ∧ interpretInt a = some k ∧ Handicap.points k s.boardSize = .ok l ∧
      vertexText l = .ok t ∧ o = .value (some t) ∧ (∀ q, s.board.pos q = none) ∧
      (∀ q, s'.board.pos q = if q ∈ l then some .b else none) ∧
      s' = { s with board := s'.board, base := s'.board, history := [], koPoint := none, handicap := some k } := by
  obtain ⟨n, hi⟩ := h.inv
  rcases fixedHandicap_spec hi hs with h | ⟨_, a, r, k, l, t, h1, h2, h3, h4, h5, h6, h7⟩
  · exact .inl h
  · obtain ⟨b, h8⟩ := h7.eq
    refine .inr ⟨a, r, k, l, t, h1, h2, by rw [hi.size]; exact h3, h4, h5, empty_pos hi.board h6, h7.pos, by rw [h8]⟩

/-- C34: place_free_handicap: the board then has the stones reported in the response (a standard layout with at most the requested
number) and no others, and the history is empty. -/
theorem C34_place_free_handicap {env : Env} {acceptable : List Int} {s s' : GS} (h : Reached env acceptable s) {args : List Str} {o : Outcome}
    (hs : s.step env .placeFreeHandicap args = (s', o)) :
    (Failed o ∧ s' = s) ∨ ∃ a r k k' k'' l t, args = a :: r ∧ interpretInt a = some k'' ∧ k' ≤ k ∧ k ≤ k'' ∧
      Handicap.points k' s.boardSize = .ok l ∧
      vertexText l = .ok t ∧ o = .value (some t) ∧ (∀ q, s.board.pos q = none) ∧
      (∀ q, s'.board.pos q = if q ∈ l then some .b else none) ∧
      s' = { s with board := s'.board, base := s'.board, history := [], koPoint := none, handicap := some k } := by
  obtain ⟨n, hi⟩ := h.inv
  rcases placeFreeHandicap_spec hi hs with h | ⟨_, a, r, k, k', k'', l, t, h1, h2, h3, h4, h5, h6, h7, h8, h9⟩
  · exact .inl h
  · obtain ⟨b, h10⟩ := h9.eq
    refine .inr ⟨a, r, k, k', k'', l, t, h1, h2, h3, h4, by rw [hi.size]; exact h5, h6, h7, empty_pos hi.board h8, h9.pos, by rw [h10]⟩

/-- C34: set_free_handicap: on success the arguments are between 2 and n²-1 different vertices, the board then has stones there and
nowhere else, and the history is empty. -/
theorem C34_set_free_handicap {env : Env} {acceptable : List Int} {s s' : GS} (h : Reached env acceptable s) {args : List Str} {r : Option Str}
    (hs : s.step env .setFreeHandicap args = (s', .value r)) (n : Nat) (hn : s.boardSize = n) :
    ∃ ps, vertexPoints n args = some ps ∧ ps.Nodup ∧ 2 ≤ ps.length ∧ ps.length < n * n ∧ (∀ q, s.board.pos q = none) ∧
      (∀ q, s'.board.pos q = if q ∈ ps then some .b else none) ∧
      s' = { s with board := s'.board, base := s'.board, history := [], koPoint := none, handicap := some ps.length } := by
  obtain ⟨m, hi⟩ := h.inv
  have : n = m := by have := hi.size; omega
  subst this
  rcases setFreeHandicap_spec hi hs with ⟨h, _⟩ | ⟨_, ps, h1, h2, h3, h4, h5, h6, h7⟩
  · exact absurd h failed_value
  · obtain ⟨b, h8⟩ := h7.eq
    exact ⟨ps, h2, h3, h4, h5, empty_pos hi.board h6, h7.pos, by rw [h8]⟩

/-- C34: loadsgf: on success the state represents the game in the file: its size, komi, handicap, setup position, and its moves
before the given move number. -/
theorem C34_loadsgf {env : Env} {acceptable : List Int} {s s' : GS} (h : Reached env acceptable s) {args : List Str} {r : Option Str}
    (hs : s.step env .loadsgf args = (s', .value r)) :
    ∃ path rest text mn game, args = path :: rest ∧ env.file path = some text ∧ Sgf.SgfGame.fromString env.codec text = .ok game ∧
      (rest = [] ∧ mn = none ∨ ∃ a r k, rest = a :: r ∧ interpretInt a = some k ∧ mn = some k) ∧
      s'.boardSize = game.size ∧
      (∃ komi, game.getKomi env.readFloat = .ok komi ∧ s'.komi = max (-625) (min 625 komi)) ∧
      (s'.handicap = none ∧ (game.getHandicap = .error .valueError ∨ game.getHandicap = .ok none) ∨
        ∃ h, s'.handicap = some h ∧ game.getHandicap = .ok (some h)) ∧
      ∃ plays, Sgf.getSetupAndMoves game.size game.tree.mainSequence = .ok (s'.base, plays) ∧
        s'.moves = match mn with
          | none => plays
          | some k => plays.take (k - 1).toNat := by
  obtain ⟨m, hi⟩ := h.inv
  rcases loadsgf_spec hi hs with ⟨h, _⟩ | ⟨_, _, path, rest, text, mn, game, h1, h2, h3, h4, h5, h6, h7, h8⟩
  · exact absurd h failed_value
  · exact ⟨path, rest, text, mn, game, h1, h2, h3, h4, h5, h6, h7, h8⟩

/-! ## C35 -/

/-- C35: a command which fails changes nothing (set_free_handicap and loadsgf: see below). -/
theorem C35_failed_unchanged {env : Env} {acceptable : List Int} {s s' : GS} (h : Reached env acceptable s) {c : Cmd} {args : List Str}
    {o : Outcome} (hs : s.step env c args = (s', o)) (hf : Failed o) (h1 : c ≠ .setFreeHandicap) (h2 : c ≠ .loadsgf) : s' = s := by
  obtain ⟨n, hi⟩ := h.inv
  rcases step_spec hi hs with ⟨h, _⟩ | ⟨_, h | ⟨h, _⟩ | ⟨h, _⟩⟩
  · exact absurd hf h
  · exact h
  · exact absurd h h1
  · exact absurd h h2

/-- C35: a set_free_handicap which fails leaves the size, komi and time settings unchanged; the position too, but if the board was empty
it may clear the history (of passes and captured stones), the base position and the handicap. -/
theorem C35_set_free_handicap {env : Env} {acceptable : List Int} {s s' : GS} (h : Reached env acceptable s) {args : List Str}
    {o : Outcome} (hs : s.step env .setFreeHandicap args = (s', o)) (hf : Failed o) :
    s'.board.pos = s.board.pos ∧
    (s' = s ∨ (∀ q, s.board.pos q = none) ∧ (∀ q, s'.base.pos q = none) ∧
      s' = { s with board := s'.board, base := s'.base, history := [], koPoint := none, koPlayer := none, handicap := none }) := by
  obtain ⟨n, hi⟩ := h.inv
  rcases step_spec hi hs with ⟨h, _⟩ | ⟨_, rfl | ⟨_, h3, b, hb, rfl⟩ | ⟨h, _⟩⟩
  · exact absurd hf h
  · exact ⟨rfl, .inl rfl⟩
  · have h4 := empty_pos hi.board h3
    have h5 := congrFun (init_spec hb).2.2.2.2
    refine ⟨?_, .inr ⟨h4, h5, rfl⟩⟩
    funext q; rw [h4]; exact h5 q
  · simp at h

/-- C35: a loadsgf which fails changes nothing but the board size (only to the size given in a file which could be parsed) and, if the
history ends with a pass, the ko point. -/
theorem C35_loadsgf {env : Env} {acceptable : List Int} {s s' : GS} (h : Reached env acceptable s) {args : List Str}
    {o : Outcome} (hs : s.step env .loadsgf args = (s', o)) (hf : Failed o) :
    s' = { s with boardSize := s'.boardSize, koPoint := s'.koPoint, koPlayer := s'.koPlayer } ∧
    (¬ EndsWithPass s.moves → s'.koPoint = s.koPoint ∧ (s.koPoint ≠ none → s'.koPlayer = s.koPlayer)) ∧
    (s'.boardSize = s.boardSize ∨ ∃ path rest text game, args = path :: rest ∧ env.file path = some text ∧
      Sgf.SgfGame.fromString env.codec text = .ok game ∧ s'.boardSize = game.size) := by
  obtain ⟨n, hi⟩ := h.inv
  rcases loadsgf_spec hi hs with ⟨_, ⟨h1, h2⟩, h3⟩ | ⟨h, _⟩
  · refine ⟨h1, ?_, h3⟩
    intro hp
    obtain ⟨ko, pl, h4, h5, h6⟩ := hi.rep
    have h6 := h6 hp
    rcases h2 with ⟨h2, h2'⟩ | ⟨ko', pl', h2, h7, h8⟩
    · exact ⟨h2, fun _ => h2'⟩
    · rw [h4] at h2
      cases h2
      refine ⟨h7.trans h6.symm, fun hne => ?_⟩
      rcases h5 with h5 | ⟨_, h5⟩
      · exact absurd h5 hne
      · rw [h8, h5]
  · exact absurd hf h

/-! ### witnesses -/

/-- Handle commands, as long as they succeed. -/
def runAll (env : Env) (s : GS) : List (Cmd × List String) → Option GS
  | [] => some s
  | (c, args) :: rest => match s.step env c (args.map String.toList) with
    | (s', .value _) => runAll env s' rest
    | _ => none

theorem runAll_reached {env : Env} {acceptable : List Int} (l : List (Cmd × List String)) :
    ∀ {s s' : GS}, Reached env acceptable s → runAll env s l = some s' → Reached env acceptable s' := by
  induction l with
  | nil => intro s s' h1 h2; simp [runAll] at h2; exact h2 ▸ h1
  | cons x l ih =>
    intro s s' h1 h2
    unfold runAll at h2
    split at h2
    · rename_i s1 r hs
      exact ih (.step h1 hs (fun hf => absurd hf failed_value)) h2
    · simp at h2

/-- A generator which passes; one file. -/
def testEnv : Env where
  generate := fun _ _ => some { passMove := true }
  readFloat := fun _ => none
  file := fun p => if p = "f".toList then some "(;SZ[9]KM[x])".toList else none
  codec := fun _ => true

def testGS : GS := (GS.init [3, 9]).toOption.getD ((GS.init [3]).toOption.get rfl)

theorem testGS_reached : Reached testEnv [3, 9] testGS := .start rfl

/-- The commands up to the capture of a stone in the corner of a 3×3 board, giving a ko at A1. -/
def koCmds : List (Cmd × List String) :=
  [(.play, ["b", "B1"]), (.play, ["w", "A1"]), (.play, ["w", "A3"]), (.play, ["w", "B2"]), (.play, ["b", "A2"])]

/-- Non-vacuity: a reachable state with a ko. -/
theorem C34_witness : ∃ s, Reached testEnv [3, 9] s ∧ s.koPoint = some (0, 0) ∧ s.koPlayer = some .w ∧ s.moves.length = 5 ∧
    s.board.rows = [[none, some .b, none], [some .b, some .w, none], [some .w, none, none]] := by
  have h : (runAll testEnv testGS koCmds).map (fun s => (s.koPoint, s.koPlayer, s.moves.length, s.board.rows)) =
      some (some (0, 0), some .w, 5, [[none, some .b, none], [some .b, some .w, none], [some .w, none, none]]) := by decide +kernel
  rw [Option.map_eq_some_iff] at h
  obtain ⟨s, hs, h⟩ := h
  simp only [Prod.mk.injEq] at h
  exact ⟨s, runAll_reached _ testGS_reached hs, h⟩

/-- A disagreement with the rules: after genmove returns a pass, the ko point is still reported. -/
theorem C34_ko_after_genmove_pass : ∃ s, Reached testEnv [3, 9] s ∧ s.moves.getLast? = some (.w, none) ∧ (s.gameState .w false).koPoint = some (0, 0) := by
  have h : (runAll testEnv testGS (koCmds ++ [(.genmove, ["w"])])).map (fun s => (s.moves.getLast?, (s.gameState .w false).koPoint)) =
      some (some (.w, none), some (0, 0)) := by decide +kernel
  rw [Option.map_eq_some_iff] at h
  obtain ⟨s, hs, h⟩ := h
  simp only [Prod.mk.injEq] at h
  exact ⟨s, runAll_reached _ testGS_reached hs, h⟩

/-- A disagreement with the rules: undoing a second pass makes the ko point reappear (`reset_to_moves` clears the wrong variable). -/
theorem C34_ko_after_undo : ∃ s s', Reached testEnv [3, 9] s ∧ s.step testEnv .play ["b".toList, "pass".toList] = (s', .value none) ∧
    s.koPoint = none ∧ (s'.step testEnv .undo []).1.koPoint = some (0, 0) := by
  have h : (runAll testEnv testGS (koCmds ++ [(.play, ["w", "pass"])])).map (fun s =>
      (s.koPoint, (s.step testEnv .play ["b".toList, "pass".toList]).2, ((s.step testEnv .play ["b".toList, "pass".toList]).1.step testEnv .undo []).1.koPoint)) =
      some (none, .value none, some (0, 0)) := by decide +kernel
  rw [Option.map_eq_some_iff] at h
  obtain ⟨s, hs, h⟩ := h
  simp only [Prod.mk.injEq] at h
  exact ⟨s, _, runAll_reached _ testGS_reached hs, Prod.ext rfl h.2.1, h.1, h.2.2⟩

/-- A disagreement: a failing loadsgf changes the board size, without changing the board; after that fixed_handicap fails part-way,
leaving a stone on the board which isn't in the history. -/
theorem C35_loadsgf_changes_size : ∃ s1 s2 e1 o2, testGS.step testEnv .loadsgf ["f".toList] = (s1, .gtpError e1) ∧
    testGS.boardSize = 3 ∧ s1.boardSize = 9 ∧ s1.board.side = 3 ∧
    s1.step testEnv .fixedHandicap ["2".toList] = (s2, o2) ∧ (∀ r, o2 ≠ .value r) ∧
    s2.history = [] ∧ s2.base.pos (2, 2) = none ∧ s2.board.pos (2, 2) = some .b := by
  refine ⟨(testGS.step testEnv .loadsgf ["f".toList]).1, ((testGS.step testEnv .loadsgf ["f".toList]).1.step testEnv .fixedHandicap ["2".toList]).1,
    "bad komi".toList, .exception [], Prod.ext rfl ?_, ?_, ?_, ?_, Prod.ext rfl ?_, by simp, ?_, ?_, ?_⟩ <;> decide +kernel

/-- A disagreement: a failing set_free_handicap forgets the passes played before it. -/
theorem C35_set_free_handicap_clears : ∃ s s' e, Reached testEnv [3, 9] s ∧ s.moves.length = 1 ∧
    s.step testEnv .setFreeHandicap ["A1".toList, "A1".toList] = (s', .gtpError e) ∧ s'.moves.length = 0 := by
  have h : (runAll testEnv testGS [(.play, ["b", "pass"])]).map (fun s =>
      (s.moves.length, (s.step testEnv .setFreeHandicap ["A1".toList, "A1".toList]).2, (s.step testEnv .setFreeHandicap ["A1".toList, "A1".toList]).1.moves.length)) =
      some (1, .gtpError "engine error: A1 is occupied".toList, 0) := by decide +kernel
  rw [Option.map_eq_some_iff] at h
  obtain ⟨s, hs, h⟩ := h
  simp only [Prod.mk.injEq] at h
  exact ⟨s, _, _, runAll_reached _ testGS_reached hs, h.1, Prod.ext rfl h.2.1, h.2.2⟩

end Gomill.Gtp
