import Verif.Lemmas.AsciiBoard
import Verif.Props.Board
/-
C12: ASCII board diagrams.
-/
namespace Gomill
open Py Go Ascii

theorem interpretLoop_ops (lines : List Str) (n : Nat) (extra : Int) {b' : Board} :
    ∀ (ps : List Pt) {b : Board}, interpretLoop lines n extra ps b = .ok b' → ∃ ops : List BoardOp, b' = ops.foldl stepBoard b := by
  intro ps
  induction ps with
  | nil => intro b h; cases h; exact ⟨[], rfl⟩
  | cons p ps ih =>
    intro b h
    obtain ⟨row, col⟩ := p
    simp only [interpretLoop, bind, Except.bind] at h
    split at h
    · simp at h
    split at h
    · simp at h
    split at h
    · simp at h
    split at h
    · exact ih h
    · rename_i c _
      split at h
      · simp at h
      rename_i r hr
      obtain ⟨ko, b1⟩ := r
      obtain ⟨ops, hops⟩ := ih h
      refine ⟨.play defaultPops row col c :: ops, ?_⟩
      have : b.playWith defaultPops row col c = .ok (ko, b1) := hr
      simp only [List.foldl_cons, stepBoard, this]
      exact hops

theorem interpretLoop_inv (lines : List Str) (n : Nat) (extra : Int) (ps : List Pt) {b b' : Board} (hi : BoardInv n b)
    (h : interpretLoop lines n extra ps b = .ok b') : BoardInv n b' := by
  obtain ⟨ops, rfl⟩ := interpretLoop_ops _ _ _ _ h
  clear h
  induction ops generalizing b with
  | nil => exact hi
  | cons op ops ih => exact ih (boardInv_step hi op)

/-- C12: reading the rendered diagram of any reachable board gives back the same board, for every size that can be
rendered. -/
theorem C12_diagram_round_trip {n : Nat} {b : Board} (h : ReachableBoard n b) (hn : n ≤ 25) :
    ∃ s, renderBoard b = .ok s ∧ interpretDiagram s n none = .ok b ∧
      (∀ e, ReachableBoard n e → (∀ p, e.pos p = none) → interpretDiagram s n (some e) = .ok b) := by
  have hi := h.inv
  have h2 : 2 ≤ n := by
    obtain ⟨b0, _, h0, _⟩ := h
    exact (init_spec h0).1
  have hr : renderBoard b = .ok (join ['\n'] (renderedLines n b.pos)) := by
    unfold renderBoard
    rw [hi.side, renderGrid_eq hn (pos := b.pos)]
    · rfl
    · intro row col hrow hcol
      have := get_ok hi.wf (p := ((row : Int), (col : Int))) (by rw [hi.side]; unfold OnBoard; simp; omega)
      simp only at this
      rw [this]; rfl
  have main : ∀ e : Board, BoardInv n e → (∀ p, e.pos p = none) →
      interpretOn (join ['\n'] (renderedLines n b.pos)) n e = .ok b := by
    intro e he hee
    unfold interpretOn
    rw [split_strip_rendered (by omega) hn]
    obtain ⟨b', e1, e2, e3, e4⟩ := interpretLoop_spec (lines := renderedLines n b.pos)
      (extra := if n > 9 then 1 else 0) hi.legal (boardPoints n)
      (by
        intro p hp
        obtain ⟨r, c⟩ := p
        have hob := mem_boardPoints.1 hp
        unfold OnBoard at hob
        simp only at hob
        obtain ⟨row, rfl⟩ : ∃ row : Nat, r = row := ⟨r.toNat, by omega⟩
        obtain ⟨col, rfl⟩ : ∃ col : Nat, c = col := ⟨c.toNat, by omega⟩
        exact ⟨_, rendered_row (by omega), rowLine_char (by omega) (by omega) (by omega)⟩)
      (fun p hp => mem_boardPoints.1 hp) (nodup_boardPoints n) e he.side he.wf
      (by intro q hq; rw [hee, if_pos (mem_boardPoints.2 hq)])
    have hpos : b'.pos = b.pos := by
      funext q
      by_cases hq : OnBoard n q
      · exact e4 q hq
      · rw [pos_off e3 (by rwa [e2]), pos_off hi.wf (by rwa [hi.side])]
    have hb' : BoardInv n b' := by
      exact interpretLoop_inv _ _ _ _ he e1
    have : b' = b := by
      apply board_ext hb'.wf hi.wf (hb'.side.trans hi.side.symm)
      · have f1 := hb'.flag
        have f2 := hi.flag
        rw [hpos] at f1
        rw [Bool.eq_iff_iff, f1, f2]
      · intro p _; rw [hpos]
    simp only [e1, this]
  refine ⟨_, hr, ?_, ?_⟩
  · unfold interpretDiagram
    have : ∃ b0, Board.init n = .ok b0 := by unfold Board.init; rw [if_neg (by omega)]; exact ⟨_, rfl⟩
    obtain ⟨b0, hb0⟩ := this
    simp only [hb0, bind, Except.bind]
    exact main b0 (boardInv_init hb0) (by simp [(init_spec hb0).2.2.2.2])
  · intro e he hee
    unfold interpretDiagram
    simp only
    rw [if_neg (by simp [he.inv.side]), if_neg]
    · exact main e he.inv hee
    · simp only [Board.isEmpty, Bool.not_eq_true]
      have := he.inv.flag.2 hee
      simp [this]

/-- C12: `interpret_diagram` on any string whatsoever either returns a board or raises ValueError. -/
theorem C12_interpret_total (s : Str) (n : Nat) (b : Option Board) :
    (∃ b', interpretDiagram s n b = .ok b') ∨ interpretDiagram s n b = .error .valueError := by
  have on : ∀ e, (∃ b', interpretOn s n e = .ok b') ∨ interpretOn s n e = .error .valueError := by
    intro e
    unfold interpretOn
    simp only
    split
    · exact Or.inl ⟨_, rfl⟩
    · exact Or.inr rfl
  cases b with
  | none =>
    unfold interpretDiagram
    simp only [Board.init]
    split
    · exact Or.inr rfl
    · simpa [bind, Except.bind] using on _
  | some e =>
    unfold interpretDiagram
    simp only
    split
    · exact Or.inr rfl
    · split
      · exact Or.inr rfl
      · exact on e

/-- C12: whatever the string, the board returned has the right size and is a legal position. -/
theorem C12_interpret_legal (s : Str) (n : Nat) (b' : Board) (h : interpretDiagram s n none = .ok b') :
    ReachableBoard n b' := by
  unfold interpretDiagram at h
  simp only [bind, Except.bind] at h
  split at h
  · simp at h
  rename_i b0 hb0
  unfold interpretOn at h
  simp only at h
  split at h
  · rename_i b2 hl
    cases h
    obtain ⟨ops, hops⟩ := interpretLoop_ops _ _ _ _ hl
    exact ⟨b0, ops, hb0, hops⟩
  · simp at h

/-- C12: rendering fails, with IndexError, for boards too big to have column letters. -/
theorem C12_render_too_big {n : Nat} {b : Board} (h : ReachableBoard n b) (hn : 25 < n) :
    renderBoard b = .error .indexError := by
  have hi := h.inv
  unfold renderBoard
  rw [hi.side]
  have hm : ∀ k, 25 < k → ∃ pre, (List.range k).mapM (fun (i : Nat) => getItem columnLetters (Int.ofNat i)) = .error .indexError ∧ pre = k := by
    intro k hk
    refine ⟨k, ?_, rfl⟩
    obtain ⟨m, rfl⟩ : ∃ m, k = 26 + m := ⟨k - 26, by omega⟩
    rw [List.range_add, List.mapM_append]
    have : (List.range 26).mapM (fun (i : Nat) => getItem columnLetters (Int.ofNat i)) = .error .indexError := by rfl
    rw [this]; rfl
  obtain ⟨_, h1, _⟩ := hm n hn
  unfold renderGrid
  rw [h1]; rfl

/-- C12: non-vacuity, a board with a captured stone in its past. -/
theorem C12_witness : ∃ b, ReachableBoard 9 b ∧ b.pos (4, 4) = some .w ∧ b.pos (0, 0) = none ∧ b.pos (0, 1) = some .b := by
  refine ⟨[BoardOp.play defaultPops 0 0 .w, .play defaultPops 0 1 .b, .play defaultPops 4 4 .w,
      .play defaultPops 1 0 .b].foldl stepBoard ⟨9, List.replicate 9 (List.replicate 9 none), true⟩,
    ⟨_, _, rfl, rfl⟩, ?_⟩
  decide +kernel

end Gomill
