import Verif.Props.ControlFile
import Verif.Props.GameJob
import Verif.Spec.RingFiles
/-
C78: the ringmaster's files.
-/
namespace Gomill.Conf
open Py Spec

/-! ### What is below what -/

theorem inside_form {d n : Str} (m : Str) (hn : '/' ∉ n) {path : Str} (h : Located path d m) :
    ∃ s : Str, inside d n = d ++ s ++ n ∧ (s = [] ∨ s = ['/']) := by
  unfold inside
  split
  · exact ⟨[], by simp, .inl rfl⟩
  · exact ⟨['/'], by simp, .inr rfl⟩

theorem noslash_prefix {n n' r r' : Str} (hn : '/' ∉ n) (hn' : '/' ∉ n') (h : n ++ '/' :: r = n' ++ '/' :: r') : n = n' := by
  have k : ∀ {n r : Str}, '/' ∉ n → (n ++ '/' :: r).takeWhile (fun c => decide (c ≠ '/')) = n := by
    intro n r hn
    exact (takeWhile_stop (p := fun c : Char => decide (c ≠ '/')) (fun x hx => decide_eq_true (fun e => hn (e ▸ hx))) (fun x hx => by cases hx; rfl)).1
  have := congrArg (List.takeWhile (fun c : Char => decide (c ≠ '/'))) h
  rw [k hn, k hn'] at this
  exact this

theorem below_located {d n m q : Str} (hq : Located q d m) (hn : '/' ∉ n) (hne : n ≠ []) : ¬ Below (inside d n) q := by
  rintro ⟨rest, hr⟩
  have hslash : ∀ {a b : Str}, '/' ∈ a ++ '/' :: b := by simp
  cases hq with
  | here hm =>
    rw [hr] at hm
    exact hm hslash
  | root hm hdne hall =>
    have : inside d n = d ++ n := by
      unfold inside
      rw [if_pos]
      cases h : d.getLast? with
      | none => exact .inl (List.getLast?_eq_none_iff.1 h)
      | some c => rw [hall c (List.mem_of_getLast? h)]; exact .inr rfl
    rw [this, List.append_assoc] at hr
    rw [List.append_cancel_left hr] at hm
    exact hm hslash
  | under k hm hdne hl =>
    have : inside d n = d ++ '/' :: n := by
      unfold inside
      rw [if_neg (by rintro (h | h); exacts [hdne h, hl h])]
    rw [this, List.append_assoc, List.append_assoc] at hr
    have hr := List.append_cancel_left hr
    rw [List.replicate_succ, List.cons_append, List.cons_append, List.cons.injEq] at hr
    cases k with
    | zero =>
      rw [List.replicate_zero, List.nil_append] at hr
      rw [hr.2] at hm
      exact hm hslash
    | succ k =>
      cases n with
      | nil => exact hne rfl
      | cons c n =>
        rw [List.replicate_succ, List.cons_append, List.cons_append, List.cons.injEq] at hr
        rw [← hr.2.1] at hn
        simp at hn

theorem below_same {d n n' q : Str} (hn : '/' ∉ n) (hn' : '/' ∉ n') (h : Below (inside d n) q) (h' : Below (inside d n') q) : n = n' := by
  obtain ⟨r, rfl⟩ := h
  obtain ⟨r', h'⟩ := h'
  unfold inside at h'
  split at h'
  · rw [List.append_assoc, List.append_assoc] at h'
    exact noslash_prefix hn hn' (List.append_cancel_left h')
  · rw [List.append_assoc, List.append_assoc] at h'
    have := List.append_cancel_left h'
    rw [List.cons_append, List.cons_append] at this
    exact noslash_prefix hn hn' (List.cons.inj this).2

/-! ### Deleting -/

/-- What is left alone by a sequence of deletions. -/
theorem delete_other {op : Str → Fs → Option Str × Fs} {touch : Str → Str → Prop}
    (hop : ∀ p fs, ∀ q, ¬ touch p q → (op p fs).2 q = fs q) :
    ∀ (ps : List Str) (x : List Str × Fs) (q : Str), (∀ p ∈ ps, ¬ touch p q) → (ps.foldl (deleteOne op) x).2 q = x.2 q
  | [], _, _, _ => rfl
  | p :: ps, x, q, h => by
    rw [List.foldl_cons, delete_other hop ps _ q (fun p' hp' => h p' (by simp [hp']))]
    unfold deleteOne
    split
    · have := hop p x.2 q (h p (by simp))
      split <;> rename_i heq <;> rw [heq] at this <;> exact this
    · rfl

theorem delete_errors {op : Str → Fs → Option Str × Fs} : ∀ (ps : List Str) (x : List Str × Fs), ∃ l, (ps.foldl (deleteOne op) x).1 = x.1 ++ l ∧
    ∀ e ∈ l, ∃ p ∈ ps, ∃ fs, (op p fs).1 = some e
  | [], x => ⟨[], by simp, by simp⟩
  | p :: ps, x => by
    obtain ⟨l, h1, h2⟩ := delete_errors ps (deleteOne op x p)
    rw [List.foldl_cons, h1]
    unfold deleteOne
    split
    · split
      · rename_i e fs heq
        refine ⟨e :: l, by simp, ?_⟩
        intro e' he'
        rcases List.mem_cons.1 he' with rfl | he'
        · exact ⟨p, by simp, x.2, by rw [heq]⟩
        · obtain ⟨p', hp', h⟩ := h2 e' he'
          exact ⟨p', by simp [hp'], h⟩
      · refine ⟨l, rfl, ?_⟩
        intro e' he'
        obtain ⟨p', hp', h⟩ := h2 e' he'
        exact ⟨p', by simp [hp'], h⟩
    · refine ⟨l, rfl, ?_⟩
      intro e' he'
      obtain ⟨p', hp', h⟩ := h2 e' he'
      exact ⟨p', by simp [hp'], h⟩

theorem delete_keeps_errors {op : Str → Fs → Option Str × Fs} (ps : List Str) (x : List Str × Fs) {e : Str} (h : e ∈ x.1) : e ∈ (ps.foldl (deleteOne op) x).1 := by
  obtain ⟨l, h1, _⟩ := delete_errors (op := op) ps x
  rw [h1]; exact List.mem_append_left _ h

/-- What happens at one of several pathnames. -/
theorem delete_at {op : Str → Fs → Option Str × Fs} {touch : Str → Str → Prop} (hop : ∀ p fs, ∀ q, ¬ touch p q → (op p fs).2 q = fs q)
    {ps : List Str} (hn : ps.Nodup) {p : Str} (hp : p ∈ ps) (x : List Str × Fs) (hrefl : touch p p)
    (hind : ∀ p' ∈ ps, p' ≠ p → ∀ q, touch p q → ¬ touch p' q) :
    ∃ fs0, (∀ q, touch p q → fs0 q = x.2 q) ∧
      ((x.2 p = none ∧ ∀ q, touch p q → (ps.foldl (deleteOne op) x).2 q = x.2 q) ∨
       (x.2 p ≠ none ∧ (∀ q, touch p q → (ps.foldl (deleteOne op) x).2 q = (op p fs0).2 q) ∧
         ∀ e, (op p fs0).1 = some e → e ∈ (ps.foldl (deleteOne op) x).1)) := by
  obtain ⟨a, b, rfl⟩ := List.append_of_mem hp
  have hnd := List.nodup_append.1 hn
  have ha : ∀ p' ∈ a, p' ≠ p := fun p' hp' e => hnd.2.2 p' hp' p (by simp) e
  have hb : ∀ p' ∈ b, p' ≠ p := fun p' hp' e => (List.nodup_cons.1 hnd.2.1).1 (e ▸ hp')
  have h1 : ∀ q, touch p q → (a.foldl (deleteOne op) x).2 q = x.2 q := fun q hq =>
    delete_other hop a x q (fun p' hp' => hind p' (by simp [hp']) (ha p' hp') q hq)
  have h2 : ∀ y q, touch p q → (b.foldl (deleteOne op) y).2 q = y.2 q := fun y q hq =>
    delete_other hop b y q (fun p' hp' => hind p' (by simp [hp']) (hb p' hp') q hq)
  refine ⟨(a.foldl (deleteOne op) x).2, h1, ?_⟩
  rw [List.foldl_append, List.foldl_cons]
  generalize hx1 : a.foldl (deleteOne op) x = x1 at h1
  have hpp := h1 p hrefl
  by_cases hnone : x.2 p = none
  · left
    refine ⟨hnone, fun q hq => ?_⟩
    rw [h2 _ q hq]
    unfold deleteOne
    rw [hpp, hnone]
    exact h1 q hq
  · right
    refine ⟨hnone, ?_⟩
    have hs : (x1.2 p).isSome = true := by
      rw [hpp]
      cases h : x.2 p with
      | none => exact absurd h hnone
      | some _ => rfl
    have hd : (deleteOne op x1 p).2 = (op p x1.2).2 ∧ ∀ e, (op p x1.2).1 = some e → e ∈ (deleteOne op x1 p).1 := by
      unfold deleteOne
      rw [if_pos hs]
      cases h : op p x1.2 with
      | mk o fs =>
        cases o with
        | none => exact ⟨rfl, fun e he => nomatch he⟩
        | some e => exact ⟨rfl, fun e' he => by cases he; simp⟩
    refine ⟨fun q hq => ?_, fun e he => ?_⟩
    · rw [h2 _ q hq, hd.1]
    · exact delete_keeps_errors b _ (hd.2 e he)

theorem remove_touch {O : Os} (hO : OsOK O) (p : Str) (fs : Fs) (q : Str) (h : ¬ q = p) : (O.remove p fs).2 q = fs q := by
  cases hr : O.remove p fs with
  | mk o fs' =>
    cases o with
    | none => exact (hO.remove hr).2 q h
    | some e => exact hO.removeError hr q

theorem rmtree_touch {O : Os} (hO : OsOK O) (p : Str) (fs : Fs) (q : Str) (h : ¬ (q = p ∨ Below p q)) : (O.rmtree p fs).2 q = fs q := by
  cases hr : O.rmtree p fs with
  | mk o fs' =>
    cases o with
    | none => exact (hO.rmtree hr).2.2 q (fun e => h (.inl e)) (fun e => h (.inr e))
    | some e =>
      rcases hO.rmtreeError hr q with h' | ⟨_, h'⟩
      · exact h'
      · exact absurd h' h

/-- The pathnames of the files. -/
def Spec.outputFiles (P : Paths) : List Str := [P.log, P.status, P.command, P.history, P.report]

theorem outputs_split (P : Paths) : outputs P = outputFiles P ++ outputDirs P := rfl

theorem outputs_form {control : Str} {P : Paths} (h : pathsOf control = .ok P) {out : Str} (ho : out ∈ outputs P) :
    ∃ x ∈ outputExtensions, out = inside P.base (P.code ++ x.toList) := by
  obtain ⟨_, _, _, _, _, _, hos⟩ := pathsOf_iff.1 h
  rw [hos, List.mem_map] at ho
  obtain ⟨x, hx, rfl⟩ := ho
  exact ⟨x, hx, rfl⟩

theorem output_ne_nil {x : String} (hx : x ∈ outputExtensions) (c : Str) : c ++ x.toList ≠ [] := by
  have : ∀ x ∈ outputExtensions, x.toList ≠ [] := by decide +kernel
  intro h
  exact this x hx (List.append_eq_nil_iff.1 h).2

theorem output_not_below {control control' : Str} {P P' : Paths} (h : pathsOf control = .ok P) (h' : pathsOf control' = .ok P') (hb : P'.base = P.base) {out out' : Str}
    (ho : out ∈ outputs P) (ho' : out' ∈ outputs P') : ¬ Below out out' := by
  obtain ⟨x, hx, rfl⟩ := outputs_form h ho
  obtain ⟨y, hy, rfl⟩ := outputs_form h' ho'
  have hl := output_located h' hy
  rw [hb] at hl ⊢
  exact below_located hl (output_noslash h hx) (output_ne_nil hx _)

theorem control_not_below {control control' : Str} {P P' : Paths} (h : pathsOf control = .ok P) (h' : pathsOf control' = .ok P') (hb : P'.base = P.base) {out : Str}
    (ho : out ∈ outputs P) : ¬ Below out control' := by
  obtain ⟨x, hx, rfl⟩ := outputs_form h ho
  obtain ⟨name, _, hl, _⟩ := pathsOf_iff.1 h'
  rw [hb] at hl
  exact below_located hl (output_noslash h hx) (output_ne_nil hx _)

/-- C78: resetting a competition. -/
theorem C78_reset (O : Os) (hO : OsOK O) (control : Str) (P : Paths) (h : pathsOf control = .ok P) (fs : Fs) (errors : List Str) (fs' : Fs)
    (hd : deleteStateAndOutput O P fs = (errors, fs')) :
    (∀ q, q ∉ outputs P → (∀ d ∈ outputDirs P, ¬ Below d q) → fs' q = fs q) ∧
    (∀ p ∈ outputFiles P, fs' p = none ∨ ∃ e ∈ errors, ∃ fs0, fs0 p = fs p ∧ (O.remove p fs0).1 = some e) ∧
    (∀ d ∈ outputDirs P, (fs d = none ∧ ∀ q, q = d ∨ Below d q → fs' q = fs q) ∨ (∀ q, q = d ∨ Below d q → fs' q = none) ∨
      ∃ e ∈ errors, ∃ fs0, (∀ q, q = d ∨ Below d q → fs0 q = fs q) ∧ (O.rmtree d fs0).1 = some e) ∧
    (∀ e ∈ errors, ∃ p ∈ outputs P, ∃ fs0, (O.remove p fs0).1 = some e ∨ (O.rmtree p fs0).1 = some e) := by
  have hnd := (C77_distinct control control P P h h).1
  rw [outputs_split] at hnd
  obtain ⟨hn1, hn2, hdis⟩ := List.nodup_append.1 hnd
  have hfiles : ∀ p ∈ outputFiles P, p ∈ outputs P := fun p hp => by rw [outputs_split]; exact List.mem_append_left _ hp
  have hdirs : ∀ p ∈ outputDirs P, p ∈ outputs P := fun p hp => by rw [outputs_split]; exact List.mem_append_right _ hp
  have hnb : ∀ p ∈ outputs P, ∀ q ∈ outputs P, ¬ Below p q := fun p hp q hq => output_not_below h h rfl hp hq
  unfold deleteStateAndOutput at hd
  change (outputDirs P).foldl (deleteOne O.rmtree) ((outputFiles P).foldl (deleteOne O.remove) ([], fs)) = _ at hd
  generalize hx : (outputFiles P).foldl (deleteOne O.remove) ([], fs) = x at hd
  have t1 := fun p fs q => remove_touch hO p fs q
  have t2 := fun p fs q => rmtree_touch hO p fs q
  have hx2 : ∀ q, q ∉ outputFiles P → x.2 q = fs q := by
    intro q hq
    rw [← hx]
    exact delete_other (touch := fun p q => q = p) t1 _ _ q (fun p hp e => hq (e ▸ hp))
  have hf2 : ∀ q, (∀ d ∈ outputDirs P, ¬ (q = d ∨ Below d q)) → fs' q = x.2 q := by
    intro q hq
    have := delete_other (touch := fun p q => q = p ∨ Below p q) t2 (outputDirs P) x q hq
    rw [hd] at this
    exact this
  have herr1 : ∀ e ∈ x.1, e ∈ errors := by
    intro e he
    have := delete_keeps_errors (op := O.rmtree) (outputDirs P) x he
    rw [hd] at this
    exact this
  refine ⟨?_, ?_, ?_, ?_⟩
  · intro q hq hb
    rw [hf2 q, hx2 q (fun hm => hq (hfiles q hm))]
    rintro d hd' (rfl | hbl)
    · exact hq (hdirs _ hd')
    · exact hb d hd' hbl
  · intro p hp
    have hsame : fs' p = x.2 p := by
      apply hf2
      rintro d hd' (rfl | hbl)
      · exact hdis p hp p hd' rfl
      · exact hnb d (hdirs d hd') p (hfiles p hp) hbl
    obtain ⟨fs0, g1, g2⟩ := delete_at (touch := fun p q => q = p) t1 hn1 hp ([], fs) rfl (fun p' _ hne q hq hq' => hne (hq'.symm.trans hq))
    rw [hx] at g2
    rw [hsame]
    rcases g2 with ⟨g2, g3⟩ | ⟨g2, g3, g4⟩
    · left; rw [g3 p rfl]; exact g2
    · cases hr : O.remove p fs0 with
      | mk o fs1 =>
        cases o with
        | none => left; rw [g3 p rfl, hr]; exact (hO.remove hr).1
        | some e => right; exact ⟨e, herr1 e (g4 e (by rw [hr])), fs0, g1 p rfl, by rw [hr]⟩
  · intro d hd'
    have hreg : ∀ q, q = d ∨ Below d q → x.2 q = fs q := by
      intro q hq
      apply hx2
      intro hm
      rcases hq with rfl | hbl
      · exact hdis q hm q hd' rfl
      · exact hnb d (hdirs d hd') q (hfiles q hm) hbl
    obtain ⟨fs0, g1, g2⟩ := delete_at (touch := fun p q => q = p ∨ Below p q) t2 hn2 hd' x (.inl rfl) (by
      intro p' hp' hne q hq hq'
      rcases hq with rfl | hq
      · rcases hq' with hq' | hq'
        · exact hne hq'.symm
        · exact hnb p' (hdirs _ hp') q (hdirs _ hd') hq'
      · rcases hq' with rfl | hq'
        · exact hnb d (hdirs _ hd') q (hdirs _ hp') hq
        · obtain ⟨x1, hx1, rfl⟩ := outputs_form h (hdirs _ hd')
          obtain ⟨x2, hx2, rfl⟩ := outputs_form h (hdirs _ hp')
          exact hne (by rw [below_same (output_noslash h hx1) (output_noslash h hx2) hq hq']))
    rw [hd] at g2
    rcases g2 with ⟨g2, g3⟩ | ⟨g2, g3, g4⟩
    · left
      exact ⟨by rw [← hreg d (.inl rfl)]; exact g2, fun q hq => (g3 q hq).trans (hreg q hq)⟩
    · right
      cases hr : O.rmtree d fs0 with
      | mk o fs1 =>
        cases o with
        | none =>
          left
          intro q hq
          refine (g3 q hq).trans ?_
          rw [hr]
          rcases hq with rfl | hq
          · exact (hO.rmtree hr).1
          · exact (hO.rmtree hr).2.1 q hq
        | some e => right; exact ⟨e, g4 e (by rw [hr]), fs0, fun q hq => (g1 q hq).trans (hreg q hq), by rw [hr]⟩
  · intro e he
    obtain ⟨l, e1, e2⟩ := delete_errors (op := O.rmtree) (outputDirs P) x
    obtain ⟨l', e3, e4⟩ := delete_errors (op := O.remove) (outputFiles P) ([], fs)
    rw [hd] at e1
    rw [hx] at e3
    replace e1 : errors = x.1 ++ l := e1
    rw [e1, e3, List.nil_append] at he
    rcases List.mem_append.1 he with he | he
    · obtain ⟨p, hp, fs0, h1⟩ := e4 e he
      exact ⟨p, hfiles p hp, fs0, .inl h1⟩
    · obtain ⟨p, hp, fs0, h1⟩ := e2 e he
      exact ⟨p, hdirs p hp, fs0, .inr h1⟩

/-- C78: resetting a competition (whose code isn't made of dots) doesn't affect its control file, or the control file and the outputs of any other competition in the same
directory. -/
theorem C78_reset_safe (O : Os) (hO : OsOK O) (control : Str) (P : Paths) (h : pathsOf control = .ok P) (hcode : ∃ c ∈ P.code, c ≠ '.') (fs : Fs) (errors : List Str) (fs' : Fs)
    (hd : deleteStateAndOutput O P fs = (errors, fs')) :
    fs' control = fs control ∧
    ∀ control' P', pathsOf control' = .ok P' → P'.base = P.base →
      fs' control' = fs control' ∧ (P'.code ≠ P.code → ∀ q, (q ∈ outputs P' ∨ ∃ d ∈ outputDirs P', Below d q) → fs' q = fs q) := by
  have hr := (C78_reset O hO control P h fs errors fs' hd).1
  have hdirs : ∀ {P : Paths}, ∀ p ∈ outputDirs P, p ∈ outputs P := fun p hp => by rw [outputs_split]; exact List.mem_append_right _ hp
  have hctl : ∀ control' P', pathsOf control' = .ok P' → P'.base = P.base → fs' control' = fs control' := by
    intro control' P' h' hb
    apply hr
    · intro hm
      obtain ⟨⟨ext, _, he⟩, _⟩ := C77_reserved control P h hcode control' hm
      rw [h'] at he
      cases he
    · exact fun d hd' => control_not_below h h' hb (hdirs d hd')
  refine ⟨hctl control P h rfl, fun control' P' h' hb => ⟨hctl control' P' h' hb, fun hne q hq => ?_⟩⟩
  have hdist := (C77_distinct control control' P P' h h').2
  have hext : ∀ {c c' : Str} {x y : String}, x ∈ outputExtensions → y ∈ outputExtensions → inside P.base (c ++ x.toList) = inside P.base (c' ++ y.toList) → c ++ x.toList = c' ++ y.toList := by
    intro c c' x y _ _ e
    unfold inside at e
    split at e
    · exact List.append_cancel_left e
    · exact (List.cons.inj (List.append_cancel_left e)).2
  rcases hq with hq | ⟨d, hd', hq⟩
  · apply hr
    · exact fun hm => hne (hdist ⟨q, hm, hq⟩).2.symm
    · exact fun d hd' => output_not_below h h' hb (hdirs d hd') hq
  · obtain ⟨x, hx, rfl⟩ := outputs_form h' (hdirs d hd')
    apply hr
    · intro hm
      obtain ⟨y, hy, rfl⟩ := outputs_form h hm
      rw [hb] at hq
      exact below_located (output_located h hy) (output_noslash h' hx) (output_ne_nil hx _) hq
    · intro d2 hd2 hq2
      obtain ⟨y, hy, rfl⟩ := outputs_form h (hdirs d2 hd2)
      rw [hb] at hq
      have e := below_same (output_noslash h' hx) (output_noslash h hy) hq hq2
      apply hne
      refine (hdist ⟨inside P.base (P.code ++ y.toList), hdirs _ hd2, ?_⟩).2.symm
      rw [← e]
      have := hdirs _ hd'
      rw [hb] at this
      exact this

/-! ### Game records -/

variable {τ δ σ : Type}

theorem dir_slash {control : Str} {P : Paths} (h : pathsOf control = .ok P) {d : Str} (hd : d ∈ outputDirs P) (n : Str) (hn : '/' ∉ n) :
    Gtp.pathJoin d n = d ++ '/' :: n ∧ Located (d ++ '/' :: n) d n := by
  obtain ⟨x, hx, rfl⟩ := outputs_form h (by rw [outputs_split]; exact List.mem_append_right _ hd)
  have hlast : (inside P.base (P.code ++ x.toList)).getLast? ≠ some '/' ∧ inside P.base (P.code ++ x.toList) ≠ [] := by
    rw [← inside_append]
    have h1 : ∀ x ∈ outputExtensions, x.toList ≠ [] ∧ x.toList.getLast? ≠ some '/' := by decide +kernel
    obtain ⟨h2, h3⟩ := h1 x hx
    refine ⟨?_, fun h => h2 (List.append_eq_nil_iff.1 h).2⟩
    rw [List.getLast?_append_of_ne_nil _ h2]
    exact h3
  refine ⟨?_, ?_⟩
  · rw [pathJoin_inside hn]
    generalize inside P.base (P.code ++ x.toList) = d at hlast
    unfold inside
    rw [if_neg (by rintro (h | h); exacts [hlast.2 h, hlast.1 h])]
  · have := Located.under (dir := inside P.base (P.code ++ x.toList)) (name := n) 0 hn hlast.2 hlast.1
    simpa using this

/-- C78: how the ringmaster prepares a job. -/
theorem C78_prepare (r : Ringmaster τ) (control : Str) (h : pathsOf control = .ok r.paths) (gtpLogs : Bool) (job : Gtp.GameJob δ) (hid : '/' ∉ job.gameId) :
    PreparedJob r gtpLogs job (prepareJob r gtpLogs job) := by
  have hn : '/' ∉ job.gameId ++ ".log".toList := by
    intro hm
    rcases List.mem_append.1 hm with hm | hm
    · exact hid hm
    · exact absurd hm (by decide)
  have hj := (dir_slash h (d := r.paths.gtplogDir) (by simp [outputDirs]) _ hn).1
  have e1 : r.paths.gtplogDir ++ "/".toList ++ job.gameId ++ ".log".toList = r.paths.gtplogDir ++ '/' :: (job.gameId ++ ".log".toList) := by
    simp only [List.append_assoc]; rfl
  constructor
  · unfold prepareJob; dsimp only; cases r.recordGames <;> cases gtpLogs <;> cases r.stderrToLog <;> rfl
  · unfold prepareJob; dsimp only; cases r.recordGames <;> cases gtpLogs <;> cases r.stderrToLog <;> simp
  · intro hr; unfold prepareJob; dsimp only; rw [hr]; cases gtpLogs <;> cases r.stderrToLog <;> exact ⟨rfl, rfl, rfl⟩
  · intro hr; unfold prepareJob; dsimp only; rw [hr]; cases gtpLogs <;> cases r.stderrToLog <;> exact ⟨rfl, rfl, rfl⟩
  · unfold prepareJob; dsimp only; rw [e1, ← hj]; cases r.recordGames <;> cases gtpLogs <;> cases r.stderrToLog <;> rfl
  · unfold prepareJob; dsimp only; cases r.recordGames <;> cases gtpLogs <;> cases r.stderrToLog <;> rfl

theorem sgf_noslash {gameId : Str} (hid : '/' ∉ gameId) : '/' ∉ sgfFilename gameId := by
  intro hm
  rcases List.mem_append.1 hm with hm | hm
  · exact hid hm
  · exact absurd hm (by decide)

/-- C78: the pathnames for game records are in the directory for them, and are different for different games. -/
theorem C78_pathnames (control : Str) (P : Paths) (h : pathsOf control = .ok P) (gameId : Str) (hid : '/' ∉ gameId) :
    sgfPathname P gameId = P.sgfDir ++ "/".toList ++ gameId ++ ".sgf".toList ∧ Located (sgfPathname P gameId) P.sgfDir (gameId ++ ".sgf".toList) ∧ Below P.sgfDir (sgfPathname P gameId) ∧
    ∀ gameId', '/' ∉ gameId' → sgfPathname P gameId' = sgfPathname P gameId → gameId' = gameId := by
  have key := fun g hg => dir_slash h (d := P.sgfDir) (by simp [outputDirs]) (sgfFilename g) (sgf_noslash (gameId := g) hg)
  obtain ⟨h1, h2⟩ := key gameId hid
  unfold sgfPathname
  refine ⟨?_, ?_, ?_, ?_⟩
  · rw [h1]; unfold sgfFilename; simp only [List.append_assoc]; rfl
  · rw [h1]; exact h2
  · rw [h1]; exact ⟨_, rfl⟩
  · intro g hg e
    rw [h1, (key g hg).1] at e
    have := (List.cons.inj (List.append_cancel_left e)).2
    exact List.append_cancel_right this

/-- C78: what a job prepared by the ringmaster writes.  If it gives a result, its game record has been written to `<game id>.sgf` in the directory for game records;
if it fails, at most a record with that name in the directory for void games; and nothing has been written if games aren't being recorded. -/
theorem C78_records (r : Ringmaster τ) (control : Str) (h : pathsOf control = .ok r.paths) (gtpLogs : Bool) (job : Gtp.GameJob δ) (hid : '/' ∉ job.gameId)
    (hjob : job.sgfFilename = none ∧ job.sgfDirname = none ∧ job.voidSgfDirname = none)
    (W : Gtp.JobWorld σ) (workerId : Option Int) (fuel : Nat) {out : Gtp.JobOut δ} {st : Gtp.JobSt σ}
    (hrun : Gtp.runJob W (prepareJob r gtpLogs job) workerId fuel = some (out, st)) :
    (∀ x, out = .result x → (Gtp.Spec.written st.trace).map Prod.fst =
      if r.recordGames then [r.paths.sgfDir ++ "/".toList ++ job.gameId ++ ".sgf".toList] else []) ∧
    (∀ p ∈ (Gtp.Spec.written st.trace).map Prod.fst, r.recordGames = true ∧ (Below r.paths.sgfDir p ∨ Below r.paths.voidDir p) ∧
      ((∃ x, out = .result x) ∨ p = r.paths.voidDir ++ "/".toList ++ job.gameId ++ ".sgf".toList)) := by
  have hp := C78_prepare r control h gtpLogs job hid
  obtain ⟨w1, w2, _, w4⟩ := Gtp.C70_written W _ workerId fuel hrun
  have key := fun d hd => (dir_slash h (d := d) hd (sgfFilename job.gameId) (sgf_noslash hid)).1
  have k1 := key r.paths.sgfDir (by simp [outputDirs])
  have k2 := key r.paths.voidDir (by simp [outputDirs])
  have e : ∀ d : Str, d ++ '/' :: sgfFilename job.gameId = d ++ "/".toList ++ job.gameId ++ ".sgf".toList := by
    intro d; unfold sgfFilename; simp only [List.append_assoc]; rfl
  have i1 : (Gtp.Spec.inDir (prepareJob r gtpLogs job).sgfDirname (prepareJob r gtpLogs job).sgfFilename).toList =
      if r.recordGames then [r.paths.sgfDir ++ "/".toList ++ job.gameId ++ ".sgf".toList] else [] := by
    cases hr : r.recordGames with
    | true =>
      obtain ⟨a, b, c⟩ := hp.record hr
      rw [a, b]
      show [Gtp.pathJoin r.paths.sgfDir (sgfFilename job.gameId)] = _
      rw [k1, e]; rfl
    | false =>
      obtain ⟨a, b, c⟩ := hp.noRecord hr
      rw [a, b, hjob.1, hjob.2.1]; rfl
  have i2 : (Gtp.Spec.inDir (prepareJob r gtpLogs job).voidSgfDirname (prepareJob r gtpLogs job).sgfFilename).toList =
      if r.recordGames then [r.paths.voidDir ++ "/".toList ++ job.gameId ++ ".sgf".toList] else [] := by
    cases hr : r.recordGames with
    | true =>
      obtain ⟨a, b, c⟩ := hp.record hr
      rw [a, c]
      show [Gtp.pathJoin r.paths.voidDir (sgfFilename job.gameId)] = _
      rw [k2, e]; rfl
    | false =>
      obtain ⟨a, b, c⟩ := hp.noRecord hr
      rw [a, c, hjob.1, hjob.2.2]; rfl
  refine ⟨fun x hx => (w1 x hx).trans i1, ?_⟩
  intro p hpm
  cases out with
  | result x =>
    rw [(w1 x rfl).trans i1] at hpm
    split at hpm
    next hr => rw [List.mem_singleton.1 hpm]; exact ⟨hr, .inl ⟨_, (e _).symm⟩, .inl ⟨x, rfl⟩⟩
    next => cases hpm
  | failed m =>
    rcases w2 m rfl with h0 | ⟨h0, _⟩
    · rw [h0] at hpm; cases hpm
    · rw [h0.trans i2] at hpm
      split at hpm
      next hr => rw [List.mem_singleton.1 hpm]; exact ⟨hr, .inr ⟨_, (e _).symm⟩, .inr rfl⟩
      next => cases hpm
  | crashed => rw [w4 rfl] at hpm; cases hpm

theorem gameId_slash {m : Tourn.Matchup} (hm : '/' ∉ m.id) (n : Nat) : '/' ∉ (m.job n).gameId := by
  have : (m.job n).gameId = m.makeGameId n := by unfold Tourn.Matchup.job; split <;> rfl
  rw [this]
  obtain ⟨s, _, hd, _, he⟩ := Tourn.gameIdOf_make m n
  rw [he]
  intro h
  rcases List.mem_append.1 h with h | h
  · exact hm h
  · rcases List.mem_cons.1 h with h | h
    · exact absurd h (by decide)
    · exact absurd (hd _ h) (by decide)

/-- C78: the ids of the games of playoffs and all-play-alls never have a slash in them, so that C78_pathnames and C78_records apply. -/
theorem C78_ids (W : World) (hW : PythonOK W) (base : Option Str) (code : Str) (config : List (Str × Val)) (t t' : Tourn.State) (j : Tourn.Job)
    (hj : t.getGame = (.ok (some j), t'))
    (hc : (∃ p, initPlayoff W base code config = .ok p ∧ t.comp = p.comp) ∨ ∃ a, initAllplayall W base code config = .ok a ∧ t.comp = a.comp) : '/' ∉ j.gameId := by
  rcases hc with ⟨p, h, ht⟩ | ⟨a, h, ht⟩
  · obtain ⟨m, hm, n, rfl, _⟩ := C75_jobs W hW base code config p h t t' ht j hj
    obtain ⟨_, _, _, hf, _⟩ := C75_accepted W hW base code config p h
    exact gameId_slash (m := m.core) (hf m hm).id n
  · obtain ⟨m, hm, n, rfl, _⟩ := C76_jobs W hW base code config a h t t' ht j hj
    obtain ⟨_, hf, _⟩ := C76_accepted W hW base code config a h
    exact gameId_slash (m := m.core) (hf m hm).1.id n

/-! ### An example -/

/-- Is this pathname below that one? -/
def isBelow (d q : Str) : Bool := (d ++ ['/']).isPrefixOf q

theorem isBelow_iff {d q : Str} : isBelow d q = true ↔ Below d q := by
  unfold isBelow Below
  rw [List.isPrefixOf_iff_prefix]
  constructor
  · rintro ⟨r, rfl⟩; exact ⟨r, by simp⟩
  · rintro ⟨r, rfl⟩; exact ⟨r, by simp⟩

/-- An operating system in which one file can't be removed. -/
def exampleOs (stuck : Str) : Os where
  remove p fs := if p = stuck then (some "stuck".toList, fs) else match fs p with
    | some .dir => (some "[Errno 21] Is a directory".toList, fs)
    | _ => (none, fun q => if q = p then none else fs q)
  rmtree p fs := if isBelow p stuck && (fs stuck).isSome then (some "stuck".toList, fs) else (none, fun q => if q = p || isBelow p q then none else fs q)

theorem exampleOs_ok (stuck : Str) : OsOK (exampleOs stuck) := by
  constructor
  · intro p fs fs' h
    simp only [exampleOs] at h
    split at h
    · cases h
    · split at h
      · cases h
      · cases h
        exact ⟨if_pos rfl, fun q hq => if_neg hq⟩
  · intro p fs e fs' h q
    simp only [exampleOs] at h
    split at h
    · cases h; rfl
    · split at h
      · cases h; rfl
      · cases h
  · intro p fs fs' h
    simp only [exampleOs] at h
    split at h
    · cases h
    · cases h
      refine ⟨by simp, fun q hq => ?_, fun q hq hb => ?_⟩
      · simp only [isBelow_iff.2 hq, Bool.or_true, if_true]
      · have : isBelow p q = false := by
          cases hb' : isBelow p q with
          | false => rfl
          | true => exact absurd (isBelow_iff.1 hb') hb
        simp [this, hq]
  · intro p fs e fs' h q
    simp only [exampleOs] at h
    split at h
    · cases h; exact .inl rfl
    · cases h

/-- Some files. -/
def exampleFs : Fs := fun p =>
  ([("t/x.ctl".toList, Node.file 0 []), ("t/x.log".toList, .file 1 []), ("t/x.status".toList, .file 2 []), ("t/x.games".toList, .dir), ("t/x.games/0_1.sgf".toList, .file 3 []),
    ("t/x.status.new".toList, .file 4 []), ("t/x2.log".toList, .file 5 [])]).lookup p

/-- The names in `exampleFs`, and whether they are there. -/
def fsView (fs : Fs) : List Bool :=
  ["t/x.ctl".toList, "t/x.log".toList, "t/x.status".toList, "t/x.games".toList, "t/x.games/0_1.sgf".toList, "t/x.status.new".toList, "t/x2.log".toList].map (fun p => (fs p).isSome)

/-- The paths for `t/x.ctl`. -/
def examplePaths : Paths where
  control := "t/x.ctl".toList
  base := "t".toList
  code := "x".toList
  log := "t/x.log".toList
  status := "t/x.status".toList
  command := "t/x.cmd".toList
  history := "t/x.hist".toList
  report := "t/x.report".toList
  sgfDir := "t/x.games".toList
  voidDir := "t/x.void".toList
  gtplogDir := "t/x.gtplogs".toList

/-- C78: an example.  A file which can't be removed doesn't keep the others from being removed; a temporary status file (left by a crash) isn't removed. -/
theorem C78_witness :
    pathsOf "t/x.ctl".toList = .ok examplePaths ∧ (∀ stuck, OsOK (exampleOs stuck)) ∧
    (deleteStateAndOutput (exampleOs []) examplePaths exampleFs).1 = [] ∧
    fsView (deleteStateAndOutput (exampleOs []) examplePaths exampleFs).2 = [true, false, false, false, false, true, true] ∧
    (deleteStateAndOutput (exampleOs "t/x.log".toList) examplePaths exampleFs).1 = ["stuck".toList] ∧
    fsView (deleteStateAndOutput (exampleOs "t/x.log".toList) examplePaths exampleFs).2 = [true, true, false, false, false, true, true] ∧
    sgfPathname examplePaths "0_1".toList = "t/x.games/0_1.sgf".toList := by
  refine ⟨by decide +kernel, exampleOs_ok, by decide +kernel, by decide +kernel, by decide +kernel, by decide +kernel, by decide +kernel⟩

end Gomill.Conf
