import Mathlib.Data.List.Nodup
import Mathlib.Algebra.BigOperators.Group.List.Basic
import Verif.Model.Board
import Verif.Lemmas.GoConn
import Verif.Lemmas.Py
/- Access lemmas for the board model. -/
namespace Gomill
open Py Go

theorem getItem_of_lt {α} {l : List α} {i : Int} (h0 : 0 ≤ i) (h : i < l.length) :
    getItem l i = .ok (l[i.toNat]'(by omega)) := by
  unfold getItem normIndex
  simp only [h0, h, if_true]
  rw [List.getElem?_eq_getElem (by omega)]

theorem getItem_of_ge {α} {l : List α} {i : Int} (h : (l.length : Int) ≤ i) :
    getItem l i = .error .indexError := by
  unfold getItem normIndex
  have h0 : 0 ≤ i := by omega
  have : ¬ i < l.length := by omega
  simp [h0, this]

theorem setItem_of_lt {α} {l : List α} {i : Int} {v : α} (h0 : 0 ≤ i) (h : i < l.length) :
    setItem l i v = .ok (l.set i.toNat v) := by
  unfold setItem normIndex
  simp [h0, h]

/-- What a user can see of the position, through `get`. -/
def Board.pos (b : Board) : Position := fun p =>
  match b.get p.1 p.2 with
  | .ok x => x
  | .error _ => none

/-- The list of lists is a square of the right size. -/
structure Board.WF (b : Board) : Prop where
  len : b.rows.length = b.side
  rows : ∀ row ∈ b.rows, row.length = b.side

theorem inRange_iff {b : Board} {p : Pt} : b.inRange p = true ↔ OnBoard b.side p := by
  unfold Board.inRange OnBoard; simp [and_assoc]

variable {b : Board}

theorem item_eq (h : b.WF) {r c : Int} (hp : OnBoard b.side (r, c)) :
    ∃ hr : r.toNat < b.rows.length, ∃ hc : c.toNat < (b.rows[r.toNat]).length,
      b.item r c = .ok ((b.rows[r.toNat])[c.toNat]) := by
  obtain ⟨h1, h2, h3, h4⟩ := hp
  simp only at *
  have hl := h.len
  have hr : r.toNat < b.rows.length := by omega
  have hrl := h.rows _ (List.getElem_mem hr)
  refine ⟨hr, by omega, ?_⟩
  unfold Board.item
  rw [getItem_of_lt h1 (by omega)]
  simp only [bind, Except.bind]
  rw [getItem_of_lt h3 (by rw [hrl]; omega)]

theorem item_ok (h : b.WF) {p : Pt} (hp : OnBoard b.side p) : b.item p.1 p.2 = .ok (b.pos p) := by
  obtain ⟨hr, hc, he⟩ := item_eq h (r := p.1) (c := p.2) hp
  unfold Board.pos Board.get
  have h1 : ¬ (p.1 < 0 ∨ p.2 < 0) := by unfold OnBoard at hp; omega
  simp only [h1, if_false, he]

theorem at_eq_pos (h : b.WF) {p : Pt} (hp : OnBoard b.side p) : b.at p = b.pos p := by
  unfold Board.at; rw [item_ok h hp]

theorem get_ok (h : b.WF) {p : Pt} (hp : OnBoard b.side p) : b.get p.1 p.2 = .ok (b.pos p) := by
  have h1 : ¬ (p.1 < 0 ∨ p.2 < 0) := by unfold OnBoard at hp; omega
  unfold Board.get
  simp only [h1, if_false, item_ok h hp]

theorem item_error (h : b.WF) {p : Pt} (h1 : 0 ≤ p.1) (h2 : 0 ≤ p.2) (hp : ¬ OnBoard b.side p) :
    b.item p.1 p.2 = .error .indexError := by
  have hl := h.len
  unfold Board.item
  by_cases hr : p.1 < b.side
  · rw [getItem_of_lt h1 (by omega)]
    simp only [bind, Except.bind]
    have hrl := h.rows _ (List.getElem_mem (l := b.rows) (n := p.1.toNat) (by omega))
    rw [getItem_of_ge]
    rw [hrl]; unfold OnBoard at hp; omega
  · rw [getItem_of_ge (by omega)]; rfl

theorem get_error (h : b.WF) {p : Pt} (hp : ¬ OnBoard b.side p) : b.get p.1 p.2 = .error .indexError := by
  unfold Board.get
  split
  · rfl
  · exact item_error h (by omega) (by omega) hp

theorem pos_off (h : b.WF) {p : Pt} (hp : ¬ OnBoard b.side p) : b.pos p = none := by
  unfold Board.pos; rw [get_error h hp]

theorem setitem_ok (h : b.WF) {p : Pt} (hp : OnBoard b.side p) (x : Option Colour) :
    ∃ b', b.setitem p.1 p.2 x = .ok b' ∧ b'.side = b.side ∧ b'.emptyFlag = b.emptyFlag ∧ b'.WF ∧
      b'.pos = Go.put b.pos p x := by
  have hp' := hp
  obtain ⟨h1, h2, h3, h4⟩ := hp
  have hl := h.len
  have hr : p.1.toNat < b.rows.length := by omega
  have hrl := h.rows _ (List.getElem_mem hr)
  have hwf : ({ b with rows := b.rows.set p.1.toNat ((b.rows[p.1.toNat]).set p.2.toNat x) } : Board).WF := by
    constructor
    · simp [hl]
    · intro row hrow
      simp only at hrow
      rcases List.mem_or_eq_of_mem_set hrow with h' | h'
      · exact h.rows row h'
      · rw [h']; simp [hrl]
  refine ⟨{ b with rows := b.rows.set p.1.toNat ((b.rows[p.1.toNat]).set p.2.toNat x) }, ?_, rfl, rfl, ?_, ?_⟩
  · unfold Board.setitem
    rw [getItem_of_lt h1 (by omega)]
    simp only [bind, Except.bind]
    rw [setItem_of_lt h3 (by rw [hrl]; omega)]
    simp only
    rw [setItem_of_lt h1 (by omega)]
    rfl
  · exact hwf
  · funext q
    by_cases hq : OnBoard b.side q
    · have e1 := item_eq h (r := q.1) (c := q.2) hq
      have e2 := item_eq hwf (r := q.1) (c := q.2) hq
      rw [item_ok h hq] at e1
      rw [item_ok hwf hq] at e2
      obtain ⟨hr1, hc1, e1⟩ := e1
      obtain ⟨hr2, hc2, e2⟩ := e2
      have e1 := Except.ok.inj e1
      have e2 := Except.ok.inj e2
      rw [e2]
      unfold Go.put
      rw [e1]
      simp only [List.getElem_set]
      obtain ⟨g1, g2, g3, g4⟩ := hq
      split
      · rename_i hrow
        have hqp : q.1 = p.1 := by omega
        simp only [List.getElem_set]
        split
        · have : q = p := by ext <;> omega
          simp [this]
        · have : ¬ q = p := by rintro rfl; omega
          simp only [this, if_false]
          simp only [hrow]
      · have : ¬ q = p := by rintro rfl; omega
        simp [this]
    · rw [pos_off hwf hq, Go.put_other, pos_off h hq]
      rintro rfl; exact hq hp'

theorem put_spec (h : b.WF) {p : Pt} (hp : OnBoard b.side p) (x : Option Colour) :
    (b.put p x).side = b.side ∧ (b.put p x).emptyFlag = b.emptyFlag ∧ (b.put p x).WF ∧
      (b.put p x).pos = Go.put b.pos p x := by
  obtain ⟨b', he, h2⟩ := setitem_ok h hp x
  unfold Board.put; rw [he]; exact h2

theorem init_spec {n : Nat} {b : Board} (h : Board.init n = .ok b) :
    2 ≤ n ∧ b.side = n ∧ b.WF ∧ b.emptyFlag = true ∧ b.pos = fun _ => none := by
  unfold Board.init at h
  split at h
  · simp at h
  · rename_i hn
    simp only [Except.ok.injEq] at h
    have hwf : b.WF := by
      subst h
      constructor
      · simp
      · intro row hrow
        rw [List.eq_of_mem_replicate hrow]; simp
    refine ⟨by omega, by subst h; rfl, hwf, by subst h; rfl, ?_⟩
    funext p
    by_cases hp : OnBoard b.side p
    · obtain ⟨hr, hc, he⟩ := item_eq hwf (r := p.1) (c := p.2) hp
      rw [item_ok hwf hp] at he
      rw [Except.ok.inj he]
      subst h; simp
    · exact pos_off hwf hp

/-! ### board points -/

theorem mem_boardPoints {n : Nat} {p : Pt} : p ∈ boardPoints n ↔ OnBoard n p := by
  unfold boardPoints OnBoard
  simp only [List.mem_flatMap, List.mem_range, List.mem_map]
  constructor
  · rintro ⟨r, hr, c, hc, rfl⟩; simp; omega
  · rintro ⟨h1, h2, h3, h4⟩
    refine ⟨p.1.toNat, by omega, p.2.toNat, by omega, ?_⟩
    ext <;> simp <;> omega

theorem nodup_boardPoints (n : Nat) : (boardPoints n).Nodup := by
  unfold boardPoints
  rw [List.nodup_flatMap]
  refine ⟨?_, ?_⟩
  · intro r _
    refine List.Nodup.map ?_ List.nodup_range
    intro a b hab
    simp at hab; omega
  · refine List.Pairwise.imp ?_ (List.nodup_range (n := n))
    intro a b hab
    rw [Function.onFun, List.disjoint_left]
    intro x hx hy
    simp only [List.mem_map] at hx hy
    obtain ⟨c, _, rfl⟩ := hx
    obtain ⟨d, _, h⟩ := hy
    apply hab
    simp at h; omega

theorem length_boardPoints (n : Nat) : (boardPoints n).length = n * n := by
  unfold boardPoints
  rw [List.length_flatMap]
  simp [List.map_const', List.sum_replicate]

theorem mem_neighbours {p q : Pt} : q ∈ neighbours p ↔ Adj p q := by
  unfold neighbours Adj
  simp only [List.mem_cons, List.not_mem_nil, or_false, Prod.ext_iff]

end Gomill
