import Verif.Items.Dict
import Verif.Reduce.Model

/-!
# Properties: reductions of a Dataset (C89, C90)
-/
namespace Verif.Reduce
open Verif.Items (Dict)
open Spec

variable {V T : Type}

/-! ## By column -/

theorem reduce0_get (func : List V → V) (fill : FillArg V) (cs : Dict String (Col V T)) (hn : cs.keys.Nodup) (n : String) :
    (reduce0 func fill cs).get n = (cs.get n).bind (reduceCol func (fill.at n)) := by
  induction cs with
  | nil => rfl
  | cons e es ih =>
    obtain ⟨k, c⟩ := e
    have hk : Dict.keys ((k, c) :: es) = k :: Dict.keys es := rfl
    rw [hk, List.nodup_cons] at hn
    have ih' := ih hn.2
    rw [Dict.get_cons]
    by_cases h : k = n
    · subst h
      have hnone : Dict.get es k = none := (Dict.get_eq_none_iff es k).2 hn.1
      simp only [reduce0, if_true, Option.bind_some]
      cases hr : reduceCol func (fill.at k) c with
      | none => simp only; rw [ih', hnone]; rfl
      | some v => simp only; rw [Dict.get_cons]; simp
    · simp only [h, if_false]
      simp only [reduce0]
      cases hr : reduceCol func (fill.at k) c with
      | none => simp only; exact ih'
      | some v => simp only; rw [Dict.get_cons]; simp only [h, if_false]; exact ih'

theorem reduce0_keys (func : List V → V) (fill : FillArg V) (cs : Dict String (Col V T)) :
    (reduce0 func fill cs).keys.Sublist cs.keys := by
  induction cs with
  | nil => exact List.Sublist.refl _
  | cons e es ih =>
    obtain ⟨k, c⟩ := e
    simp only [reduce0]
    cases hr : reduceCol func (fill.at k) c with
    | none => exact List.Sublist.cons _ ih
    | some v => exact List.Sublist.cons₂ _ ih

/-- **C89.** A reduction by column has, in the order of the columns and under their names, the
function of every column one can compute with; any other column is what the fill value for it
says, and left out without one. -/
theorem by_column (func : List V → V) (fill : FillArg V) (d : Ds V T) (hn : d.cols.keys.Nodup) :
    (reduce0 func fill d.cols).keys.Sublist d.cols.keys ∧
    ∀ n c, d.cols.get n = some c →
      (c.comp = true → (reduce0 func fill d.cols).get n = some (func c.vals)) ∧
      (c.comp = false → fill.at n = .no → (reduce0 func fill d.cols).get n = none) ∧
      (c.comp = false → ∀ g, fill.at n = .func g → (reduce0 func fill d.cols).get n = some (g c.vals)) ∧
      (c.comp = false → ∀ v, fill.at n = .one v → (reduce0 func fill d.cols).get n = some v) := by
  refine ⟨reduce0_keys func fill d.cols, fun n c hc => ?_⟩
  rw [reduce0_get func fill d.cols hn n, hc]
  simp only [Option.bind_some]
  refine ⟨?_, ?_, ?_, ?_⟩
  · intro h; simp [reduceCol, h]
  · intro h hf; simp [reduceCol, h, hf]
  · intro h g hf; simp [reduceCol, h, hf]
  · intro h v hf; simp [reduceCol, h, hf]

/-! ## By row -/

/-- **C89, fill values by name**: a column one cannot compute with becomes what the dictionary has
under its own name, and is left out if the dictionary does not have it. -/
theorem by_column_named (func : List V → V) (fd : Dict String (Fill V)) (d : Ds V T) (hn : d.cols.keys.Nodup) (n : String) (c : Col V T)
    (hc : d.cols.get n = some c) (hcomp : c.comp = false) :
    (fd.get n = none → (reduce0 func (.byName fd) d.cols).get n = none) ∧
    (∀ g, fd.get n = some (.func g) → (reduce0 func (.byName fd) d.cols).get n = some (g c.vals)) ∧
    (∀ v, fd.get n = some (.one v) → (reduce0 func (.byName fd) d.cols).get n = some v) := by
  rw [reduce0_get func _ d.cols hn n, hc]
  refine ⟨?_, ?_, ?_⟩
  · intro h; simp [reduceCol, hcomp, FillArg.at, h]
  · intro g h; simp [reduceCol, hcomp, FillArg.at, h]
  · intro v h; simp [reduceCol, hcomp, FillArg.at, h]

example : reduce0 (fun xs : List Int => xs.foldr (· + ·) 0) (.byName [("s", .one 7)])
    ([("s", ⟨.text, false, false, [1, 2]⟩), ("t", ⟨.text, false, false, [1, 2]⟩), ("x", ⟨.num, true, false, [3, 4]⟩)] : Dict String (Col Int Bool))
    = [("s", 7), ("x", 7)] := by decide

/-- **C90.** Without fill value a reduction by row reduces, row by row, the columns one can compute
with that are not labels, converted to their common dtype; it raises exactly when there are none.
The columns themselves are converted as well. -/
theorem by_row_exact (common : List T → T) (cast : T → V → V) (func : List V → V) (d : Ds V T) :
    (chosen d = [] → reduce1 common cast func (.all .no) d = .error .value) ∧
    (chosen d ≠ [] → ∃ res d', reduce1 common cast func (.all .no) d = .ok (res, d') ∧
      res.length = nrows d ∧
      (∀ i < nrows d, res[i]? = some (func (rowOf
        ((chosen d).map fun e => e.2.vals.map (cast (common ((chosen d).map fun e => e.2.dtype)))) i))) ∧
      d'.labels = d.labels ∧ d'.cols.keys = d.cols.keys ∧
      ∀ (i : Nat) n c, d.cols[i]? = some (n, c) → ∃ c', d'.cols[i]? = some (n, c') ∧ c'.comp = c.comp ∧ c'.kind = c.kind ∧
        (c.comp = true ∧ n ∉ d.labels → c'.vals = c.vals.map (cast (common ((chosen d).map fun e => e.2.dtype)))) ∧
        (¬ (c.comp = true ∧ n ∉ d.labels) → c' = c)) := by
  constructor
  · intro h; simp [reduce1, FillArg.isNone, imatrixMake, h]
  · intro h
    have hv : reduce1 common cast func (.all .no) d = .ok
        (byRows func (nrows d) ((chosen d).map fun e => e.2.vals.map (cast (common ((chosen d).map fun e => e.2.dtype)))),
          { d with cols := d.cols.map fun e => (e.1, if e.2.comp && decide (e.1 ∉ d.labels) then
              castCol cast (common ((chosen d).map fun e => e.2.dtype)) e.2 else e.2) }) := by
      simp only [reduce1, FillArg.isNone, imatrixMake, h, if_false, if_true]
    refine ⟨_, _, hv, by simp [byRows], ?_, rfl, ?_, ?_⟩
    · intro i hi; simp [byRows, rowOf, hi]
    · simp [Dict.keys, Function.comp_def]
    · intro i n c hc
      refine ⟨_, by rw [List.getElem?_map, hc]; rfl, ?_, ?_, ?_, ?_⟩
      · simp only; split <;> rfl
      · simp only; split <;> rfl
      · intro h; simp [h.1, h.2, castCol]
      · intro h
        have : (c.comp && decide (n ∉ d.labels)) = false := by
          rw [Bool.eq_false_iff]; intro h'; simp at h'; exact h h'
        simp only [this, Bool.false_eq_true, if_false]

/-- **C90, columns of one dtype.** If conversion to the common dtype changes no entry, the result
is that of the rows, and no entry changes. -/
theorem by_row_partial (common : List T → T) (cast : T → V → V) (func : List V → V) (d : Ds V T) (h : chosen d ≠ [])
    (hc : ∀ e ∈ chosen d, ∀ v ∈ e.2.vals, cast (common ((chosen d).map fun e => e.2.dtype)) v = v) :
    ∃ res d', reduce1 common cast func (.all .no) d = .ok (res, d') ∧ res.length = nrows d ∧
      (∀ i < nrows d, res[i]? = some (func (rowOf ((chosen d).map fun e => e.2.vals) i))) ∧
      d'.labels = d.labels ∧ d'.cols.map (fun e => (e.1, e.2.vals)) = d.cols.map fun e => (e.1, e.2.vals) := by
  have e1 : ((chosen d).map fun e => e.2.vals.map (cast (common ((chosen d).map fun e => e.2.dtype)))) = (chosen d).map fun e => e.2.vals := by
    apply List.map_congr_left
    intro e he
    conv_rhs => rw [← List.map_id e.2.vals]
    exact List.map_congr_left fun v hv => hc e he v hv
  obtain ⟨res, d', h1, h2, h3, h4, h5, h6⟩ := (by_row_exact common cast func d).2 h
  rw [e1] at h3
  refine ⟨res, d', h1, h2, h3, h4, ?_⟩
  have hl : d'.cols.length = d.cols.length := by
    have := congrArg List.length h5; simpa [Dict.keys] using this
  apply List.ext_getElem (by simp [hl])
  intro i hi hi'
  have hid : i < d.cols.length := by simpa using hi'
  obtain ⟨c', g1, _, _, g2, g3⟩ := h6 i d.cols[i].1 d.cols[i].2 (by rw [List.getElem?_eq_getElem hid])
  have hid' : i < d'.cols.length := by omega
  rw [List.getElem?_eq_getElem hid'] at g1
  rw [List.getElem_map, List.getElem_map, Option.some.inj g1]
  simp only [Prod.mk.injEq, true_and]
  by_cases hq : d.cols[i].2.comp = true ∧ d.cols[i].1 ∉ d.labels
  · rw [g2 hq]
    conv_rhs => rw [← List.map_id d.cols[i].2.vals]
    refine List.map_congr_left fun v hv => hc d.cols[i] ?_ v hv
    exact List.mem_filter.2 ⟨List.getElem_mem hid, by simp [hq.1, hq.2]⟩
  · rw [g3 hq]

/-- **C90, with a fill value** the rows of all columns are reduced, labels among them, and nothing
is changed. -/
theorem by_row_fill (common : List T → T) (cast : T → V → V) (func : List V → V) (v : V) (d : Ds V T) :
    reduce1 common cast func (.all (.one v)) d = .ok ((List.range (nrows d)).map fun i =>
      func (rowOf (d.cols.map fun e => if e.2.comp = true then e.2.vals else e.2.vals.map fun _ => v) i), d) := by
  simp only [reduce1, FillArg.isNone, Bool.false_eq_true, if_false]
  congr 2
  apply List.map_congr_left
  intro i _
  congr 1
  simp only [rowOf, List.filterMap_map]
  apply List.filterMap_congr
  intro e _
  cases hc : e.2.comp with
  | true => simp [FillArg.at, hc]; cases e.2.vals[i]? <;> rfl
  | false =>
    simp only [FillArg.at, Function.comp_apply, hc, Bool.false_eq_true, if_false, List.getElem?_map]
    cases e.2.vals[i]? <;> rfl

/-! ## As a whole -/

/-- **C89, `axis=None`**: the function of all entries of all columns, if one can compute with all
columns. -/
theorem whole_partial (func funcPlain : List V → V) (fill : FillArg V) (d : Ds V T) (h : ∀ e ∈ d.cols, e.2.comp = true) :
    reduceAll func funcPlain fill d = func (d.cols.map fun e => e.2.vals).flatten := by
  have : (d.cols.any fun e => !e.2.comp) = false := by
    rw [List.any_eq_false]; intro e he; simp [h e he]
  simp [reduceAll, this]

theorem reduce0_vals (func : List V → V) (cs : Dict String (Col V T)) :
    (reduce0 func (.all .no) cs).map Prod.snd = ((cs.filter fun e => e.2.comp).map fun e => e.2.vals).map func := by
  induction cs with
  | nil => rfl
  | cons e es ih =>
    obtain ⟨n, c⟩ := e
    cases h : c.comp with
    | true => simp only [reduce0, FillArg.at, reduceCol, h, if_true, List.map_cons, ih]; simp [h]
    | false => simp only [reduce0, FillArg.at, reduceCol, h]; simp only [Bool.false_eq_true, if_false, ih]; simp [h]

/-- **C89, `axis=None` next to other columns**: it is the function of the results of the columns, so
for functions that can be computed by parts it is the function of all entries. -/
theorem whole_parts (func : List V → V) (hp : ByParts func) (d : Ds V T) :
    reduceAll func func (.all .no) d = func ((d.cols.filter fun e => e.2.comp).map fun e => e.2.vals).flatten := by
  unfold reduceAll
  split
  · rw [reduce0_vals, hp]
  · rename_i h
    congr 2
    have : (d.cols.filter fun e => e.2.comp) = d.cols := by
      rw [List.filter_eq_self]
      intro e he
      by_contra hc
      exact h (List.any_eq_true.2 ⟨e, he, by simpa using hc⟩)
    rw [this]

end Verif.Reduce
