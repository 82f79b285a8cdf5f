import Verif.DsOps.Model
import Mathlib.Data.List.Forall2

/-!
# Object arrays as columns
-/

namespace Verif.DsOps

theorem everyCell_map {α β : Type} (f : α → Option β) (g : α → β) (xs : List α) (h : ∀ x ∈ xs, f x = some (g x)) :
    everyCell f xs = some (xs.map g) := by
  induction xs with
  | nil => rfl
  | cons x xs ih =>
    simp only [everyCell, h x List.mem_cons_self, ih fun y hy => h y (List.mem_cons_of_mem _ hy), List.map_cons]

theorem everyCell_some {α β : Type} (f : α → Option β) (xs : List α) (ys : List β) (h : everyCell f xs = some ys) :
    xs.map f = ys.map some := by
  induction xs generalizing ys with
  | nil => simp [everyCell] at h; subst h; rfl
  | cons x xs ih =>
    simp only [everyCell] at h
    cases hx : f x with
    | none => simp [hx] at h
    | some y =>
      cases hr : everyCell f xs with
      | none => simp [hx, hr] at h
      | some zs =>
        simp only [hx, hr, Option.some.injEq] at h
        subst h
        simp [hx, ih zs hr]

theorem everyCell_none {α β : Type} (f : α → Option β) (xs : List α) (h : everyCell f xs = none) : ∃ x ∈ xs, f x = none := by
  induction xs with
  | nil => simp [everyCell] at h
  | cons x xs ih =>
    simp only [everyCell] at h
    cases hx : f x with
    | none => exact ⟨x, List.mem_cons_self, hx⟩
    | some y =>
      cases hr : everyCell f xs with
      | none => exact (ih hr).imp fun a ha => ⟨List.mem_cons_of_mem _ ha.1, ha.2⟩
      | some zs => simp [hx, hr] at h

/-- Whole numbers that fit 64 bits. -/
def Whole : Obj → Prop
  | .int i => -(2 ^ 63) ≤ i ∧ i < 2 ^ 63
  | .bool _ => True
  | _ => False

/-- Numbers of any kind. -/
def Number : Obj → Prop
  | .int _ | .bool _ | .float _ | .nan => True
  | _ => False

/-- Text. -/
def IsText : Obj → Prop
  | .str _ => True
  | _ => False

/-- Starts with a float or NaN. -/
def FloatFirst : List Obj → Prop
  | .float _ :: _ | .nan :: _ => True
  | _ => False

/-- The float of a number. -/
def floatOf : Obj → Cell
  | .int i => .float (1000 * i)
  | .bool b => .float (if b then 1000 else 0)
  | .float t => .float t
  | _ => .nan

/-- Part of: an object array becomes a column of the same values. Proved for arrays of text only, of whole numbers (and bools) only,
and for arrays of numbers that begin with a float. -/
theorem convert_partial (parseI parseF : String → Option Int) (text : Obj → String) (ht : ∀ s, text (.str s) = s) (v : List Obj)
    (hne : v ≠ []) (h : (∀ o ∈ v, IsText o) ∨ (∀ o ∈ v, Whole o) ∨ ((∀ o ∈ v, Number o) ∧ FloatFirst v)) :
    ∃ cs, convert parseI parseF text v = .ok cs ∧ List.Forall₂ Same v cs := by
  have hmap (g : Obj → Cell) (hg : ∀ o ∈ v, Same o (g o)) : List.Forall₂ Same v (v.map g) := by
    clear hne h
    induction v with
    | nil => exact .nil
    | cons x xs ih => exact .cons (hg x List.mem_cons_self) (ih fun o ho => hg o (List.mem_cons_of_mem _ ho))
  rcases h with h | h | ⟨h, hf⟩
  · match v, hne, h, hmap with
    | x :: xs, _, h, hmap =>
      have hx := h x List.mem_cons_self
      cases x with
      | str s =>
        refine ⟨_, rfl, hmap _ fun o ho => ?_⟩
        have := h o ho
        cases o <;> simp_all [IsText, Same]
      | _ => cases hx
  · have hw : everyCell (toInt parseI) v = some (v.map fun (o : Obj) => match o with
        | .int i => i
        | .bool b => if b then 1 else 0
        | _ => 0) := by
      refine everyCell_map _ _ _ fun o ho => ?_
      have := h o ho
      cases o <;> simp_all [Whole, toInt]
    match v, hne, h, hw, hmap with
    | x :: xs, _, h, hw, hmap =>
      have hx := h x List.mem_cons_self
      refine ⟨((x :: xs).map fun (o : Obj) => match o with
        | .int i => i
        | .bool b => if b then 1 else 0
        | _ => 0).map Cell.int, ?_, ?_⟩
      · cases x with
        | int i => simp only [convert, hw, Option.map_some, Option.getD_some]
        | bool b => simp only [convert, hw, Option.map_some, Option.getD_some]
        | _ => cases hx
      · rw [List.map_map]
        refine hmap _ fun o ho => ?_
        have := h o ho
        cases o <;> simp_all [Whole, Same]
  · have hw : everyCell (toFloat parseF) v = some (v.map floatOf) := by
      refine everyCell_map _ _ _ fun o ho => ?_
      have := h o ho
      cases o <;> simp_all [Number, toFloat, floatOf]
    match v, hne, h, hw, hmap, hf with
    | x :: xs, _, h, hw, hmap, hf =>
      refine ⟨_, ?_, hmap floatOf fun o ho => ?_⟩
      · cases x with
        | float t => simp only [convert, hw, Option.getD_some]
        | nan => simp only [convert, hw, Option.getD_some]
        | _ => cases hf
      · have := h o ho
        cases o <;> simp_all [Number, Same, floatOf]

example : (∀ o ∈ [Obj.float 2500, .int 3, .nan], Number o) ∧ FloatFirst [Obj.float 2500, .int 3, .nan] := by
  simp [Number, FloatFirst]

/-- What happens to an array that begins with a whole number: every fraction is cut off if all objects can be read as whole numbers,
otherwise all cells become text. -/
theorem convert_int_exact (parseI parseF : String → Option Int) (text : Obj → String) (i : Int) (v : List Obj) :
    (∃ is : List Int, (Obj.int i :: v).map (toInt parseI) = is.map some ∧
      convert parseI parseF text (.int i :: v) = .ok (is.map Cell.int)) ∨
    ((∃ o ∈ (Obj.int i :: v), toInt parseI o = none) ∧
      convert parseI parseF text (.int i :: v) = .ok ((Obj.int i :: v).map fun (o : Obj) => .text (text o))) := by
  cases h : everyCell (toInt parseI) (.int i :: v) with
  | some is => exact .inl ⟨is, everyCell_some _ _ _ h, by simp only [convert, h, Option.map_some, Option.getD_some]⟩
  | none => exact .inr ⟨everyCell_none _ _ h, by simp only [convert, h, Option.map_none, Option.getD_none]⟩

/-- Fractions after a whole number are lost without an exception: whatever the fraction, the column has the whole part. -/
theorem fraction_lost (parseI parseF : String → Option Int) (text : Obj → String) (i t : Int) (hi : -(2 ^ 63) ≤ i ∧ i < 2 ^ 63)
    (ht : -(2 ^ 63) ≤ t.tdiv 1000 ∧ t.tdiv 1000 < 2 ^ 63) (hfrac : ¬ (1000 : Int) ∣ t) :
    convert parseI parseF text [.int i, .float t] = .ok [.int i, .int (t.tdiv 1000)] ∧ ¬ Same (.float t) (.int (t.tdiv 1000)) := by
  constructor
  · simp only [convert, everyCell, toInt, hi, ht, and_self, if_true, Option.map_some, Option.getD_some, List.map_cons, List.map_nil]
  · simp only [Same]
    exact fun h => hfrac ⟨_, h⟩

example : ¬ (1000 : Int) ∣ 2500 := by decide

/-- The code violates it: `[1, 2.5]` becomes `[1, 2]`; `[1, None]` becomes text; numbers after a number too large become text. -/
theorem convert_counterexample :
    convert (fun _ => none) (fun _ => none) (fun _ => "x") [.int 1, .float 2500] = .ok [.int 1, .int 2] ∧
    ¬ Same (.float 2500) (.int 2) ∧
    convert (fun _ => none) (fun _ => none) (fun _ => "x") [.int 1, .none] = .ok [.text "x", .text "x"] ∧
    ¬ Same (.int 1) (.text "x") ∧
    convert (fun _ => none) (fun _ => none) (fun _ => "x") [.int 1, .int (2 ^ 63)] = .ok [.text "x", .text "x"] := by
  refine ⟨rfl, by decide, rfl, by decide, ?_⟩
  simp [convert, everyCell, toInt]

/-- A column of bools given as objects never has cells that are bools. -/
theorem bools_become_ints (parseI parseF : String → Option Int) (text : Obj → String) (bs : List Bool) (hne : bs ≠ []) :
    convert parseI parseF text (bs.map Obj.bool) = .ok (bs.map fun (b : Bool) => .int (if b then 1 else 0)) := by
  have h : everyCell (toInt parseI) (bs.map Obj.bool) = some ((bs.map Obj.bool).map fun (o : Obj) => match o with
        | .bool b => if b then 1 else 0
        | _ => (0 : Int)) := by
    refine everyCell_map _ _ _ fun o ho => ?_
    rcases List.mem_map.1 ho with ⟨b, _, rfl⟩
    rfl
  match bs, hne with
  | b :: bs, _ =>
    simp only [List.map_cons] at h
    simp only [List.map_cons, convert, h, Option.map_some, Option.getD_some, List.map_map]
    rfl

end Verif.DsOps
