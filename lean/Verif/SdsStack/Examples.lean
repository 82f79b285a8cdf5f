import Verif.SdsStack.Rows
/-!
# C249–C251: examples and counterexamples
-/
namespace Verif.SdsStack
open Verif.Items Verif.Cat

def exBuf (n : Nat) : List Int := List.replicate n 99

/-- the invalid of the examples -/
def exInv : Int := -128

def stackEx (ts : List (Table Nat)) : Except Err (List (Name × Column Nat)) :=
  stackItems exCrc exI exS refGroup exBuf exInv (ts.map save)

/-- what the stack shows -/
def showEx (ts : List (Table Nat)) : Except Err (List (Name × List (Option (Cell Nat)))) :=
  (stackEx ts).map fun res => res.map fun e => (e.1, e.2.shows exInv)

def cN : Name := ['n']
def cC : Name := ['c']
def cM : Name := ['m']

/-- three Datasets: the first has no Categorical, the second has one and the third another without the numbers -/
def exA : Table Nat := ⟨2, [(cN, ⟨.plain 0, [5, 6]⟩)]⟩
def exB : Table Nat := ⟨1, [(cN, ⟨.plain 0, [7]⟩), (cC, ⟨.arr 1 [10, 20], [2]⟩)]⟩
def exC : Table Nat := ⟨3, [(cC, ⟨.arr 1 [30, 20], [1, 0, 2]⟩)]⟩

theorem exOK : ∀ t ∈ [exA, exB, exC], TableOK exInv t := by
  intro t ht
  simp only [List.mem_cons, List.not_mem_nil, or_false] at ht
  rcases ht with rfl | rfl | rfl <;> refine ⟨by decide, by decide, by decide, ?_⟩ <;>
    simp [exA, exB, exC, KindOK]

theorem exSame : SameKind [exA, exB, exC] := by
  intro t ht t' ht' n c c' hc hc'
  have h := col_mem hc
  have h' := col_mem hc'
  simp only [List.mem_cons, List.not_mem_nil, or_false] at ht ht'
  rcases ht with rfl | rfl | rfl <;> rcases ht' with rfl | rfl | rfl <;>
    simp only [exA, exB, exC, List.mem_cons, List.not_mem_nil, or_false, Prod.mk.injEq] at h h' <;>
    aesop (add simp [Kind.tag, cN, cC])

example : Stackable [exA, exB, exC] cC := by
  intro t ht c hc
  have h := col_mem hc
  simp only [List.mem_cons, List.not_mem_nil, or_false] at ht
  rcases ht with rfl | rfl | rfl <;> simp only [exA, exB, exC, List.mem_cons, List.not_mem_nil, or_false, Prod.mk.injEq] at h <;>
    aesop (add simp [cN, cC])

example : showEx [exA, exB, exC] = .ok [(cN, [some (.num 0 5), some (.num 0 6), some (.num 0 7), none, none, none]),
    (cC, [none, none, some (.label 20), some (.label 30), none, some (.label 20)])] := by decide +kernel

/-- **C250** is not true with base index 0: rows of a Dataset without the column show the first category. -/
theorem stack_base0_gap_counterexample : ∃ t t' : Table Nat, TableOK exInv t ∧ TableOK exInv t' ∧ t'.col cC = none ∧
    t'.shows exInv cC = [none] ∧
    showEx [t, t'] = .ok [(cC, [some (.label 20), some (.label 10)]), (cN, [none, some (.num 0 4)])] :=
  ⟨⟨1, [(cC, ⟨.arr 0 [10, 20], [1]⟩)]⟩, ⟨1, [(cN, ⟨.plain 0, [4]⟩)]⟩,
    ⟨by decide, by decide, by decide, by simp [KindOK]⟩, ⟨by decide, by decide, by decide, by simp [KindOK]⟩, rfl, rfl, by decide +kernel⟩

/-- **C250** is not true for mappings: rows of a Dataset without the column show the label of code 0. -/
theorem stack_mapping_gap_counterexample : ∃ t t' : Table Nat, TableOK exInv t ∧ TableOK exInv t' ∧ t'.col cM = none ∧
    showEx [t, t'] = .ok [(cM, [some (.text ['a']), some (.text ['z'])]), (cN, [none, some (.num 0 4)])] :=
  ⟨⟨1, [(cM, ⟨.map [(1, ['a']), (0, ['z'])], [1]⟩)]⟩, ⟨1, [(cN, ⟨.plain 0, [4]⟩)]⟩,
    ⟨by decide, by decide, by decide, by simp [KindOK, exInv]⟩, ⟨by decide, by decide, by decide, by simp [KindOK]⟩, rfl, by decide +kernel⟩

/-- **C250** is not true for codes without a label: they get the label another Dataset gives the code. -/
theorem stack_mapping_unlabelled_counterexample : ∃ t t' : Table Nat, TableOK exInv t ∧ TableOK exInv t' ∧
    t.shows exInv cM = [some (.num 0 5)] ∧
    showEx [t, t'] = .ok [(cM, [some (.text ['b']), some (.text ['b'])])] :=
  ⟨⟨1, [(cM, ⟨.map [(1, ['a'])], [5]⟩)]⟩, ⟨1, [(cM, ⟨.map [(5, ['b'])], [5]⟩)]⟩,
    ⟨by decide, by decide, by decide, by simp [KindOK, exInv]⟩, ⟨by decide, by decide, by decide, by simp [KindOK, exInv]⟩, rfl, by decide +kernel⟩

/-- **C251** is not true: the class and the settings of the first Dataset are given to the rows of all of them (class 1: a
`Date`, class 2: a `DateTimeNano`; the second row held a time and shows a day). -/
theorem stack_class_counterexample : ∃ t t' : Table Nat, TableOK exInv t ∧ TableOK exInv t' ∧
    t'.shows exInv cN = [some (.num 2 70)] ∧ showEx [t, t'] = .ok [(cN, [some (.num 1 3), some (.num 1 70)])] :=
  ⟨⟨1, [(cN, ⟨.plain 1, [3]⟩)]⟩, ⟨1, [(cN, ⟨.plain 2, [70]⟩)]⟩,
    ⟨by decide, by decide, by decide, by simp [KindOK]⟩, ⟨by decide, by decide, by decide, by simp [KindOK]⟩, rfl, by decide +kernel⟩

/-- **C251** is not true: numbers stacked with times become times. -/
theorem stack_numbers_counterexample : ∃ t t' : Table Nat, TableOK exInv t ∧ TableOK exInv t' ∧
    t.shows exInv cN = [some (.num 0 3)] ∧ showEx [t, t'] = .ok [(cN, [some (.num 2 3), some (.num 2 70)])] :=
  ⟨⟨1, [(cN, ⟨.plain 0, [3]⟩)]⟩, ⟨1, [(cN, ⟨.plain 2, [70]⟩)]⟩,
    ⟨by decide, by decide, by decide, by simp [KindOK]⟩, ⟨by decide, by decide, by decide, by simp [KindOK]⟩, rfl, by decide +kernel⟩

/-- **C251** is not true: numbers stacked with a Categorical are taken for codes; the number 3 is lost. -/
theorem stack_mixed_counterexample : ∃ t t' : Table Nat, TableOK exInv t ∧ TableOK exInv t' ∧
    t.shows exInv cC = [some (.num 0 3)] ∧ showEx [t, t'] = .ok [(cC, [none, some (.label 20)])] :=
  ⟨⟨1, [(cC, ⟨.plain 0, [3]⟩)]⟩, ⟨1, [(cC, ⟨.arr 1 [10, 20], [2]⟩)]⟩,
    ⟨by decide, by decide, by decide, by simp [KindOK]⟩, ⟨by decide, by decide, by decide, by simp [KindOK]⟩, rfl, by decide +kernel⟩

-- different base indices
example : showEx [⟨1, [(cC, ⟨.arr 1 [10], [1]⟩)]⟩, ⟨1, [(cC, ⟨.arr 0 [10], [0]⟩)]⟩] = .error .type := by decide +kernel
-- a mapping and an array of categories
example : showEx [⟨1, [(cC, ⟨.arr 1 [10], [1]⟩)]⟩, ⟨1, [(cC, ⟨.map [(1, ['a'])], [1]⟩)]⟩] = .error .type := by decide +kernel

/-- **C251** is not true for a Categorical whose name contains `!`: the saved Datasets cannot be stacked. -/
theorem stack_bang_counterexample :
    showEx [⟨1, [(['a', '!'], ⟨.arr 1 [10], [1]⟩)]⟩, ⟨1, [(['a', '!'], ⟨.arr 1 [10], [1]⟩)]⟩] = .error .key := by decide +kernel

end Verif.SdsStack
