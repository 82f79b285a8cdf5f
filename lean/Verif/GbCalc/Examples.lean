import Verif.GbCalc.Args
import Verif.GbCalc.Quant
/-!
# Group-by operations: concrete cases and counterexamples
-/
namespace Verif.GbCalc

/-- the sum of the rows of every group of a column of six rows in three groups, as a stand-in for the calculation -/
def demoAgg (f : Name) (c : Col Nat) : Option (List Nat) :=
  let g := [0, 1, 0, 2, 1, 0]
  some ((List.range 3).map fun b => ((c.vals.zip g).filter fun p => decide (p.2 = b)).foldl
    (fun s p => if f = "sum".toList then s + p.1 else max s p.1) 0)

/-- keys shown in the order of groups 2, 0, 1 -/
def demoEnv : Env Nat :=
  { gbkeys := [("k".toList, [7, 8, 9])], isort := some [2, 0, 1], agg := demoAgg, inv := fun _ => [99, 99, 99] }

def num (i : Nat) (v : List Nat) : Col Nat := ⟨i, .number, v⟩

def demoData : List (Name × Col Nat) :=
  [("k".toList, num 0 [8, 9, 8, 7, 9, 8]), ("a".toList, num 1 [1, 2, 3, 4, 5, 6]), ("d".toList, ⟨2, .date, [1, 2, 3, 4, 5, 6]⟩),
    ("ab".toList, num 3 [10, 20, 30, 40, 50, 60])]

/-- dates are not summed; rows follow the order shown -/
example : calculate demoEnv "sum".toList {} demoData =
    [("k".toList, [7, 8, 9]), ("a".toList, [4, 10, 7]), ("ab".toList, [40, 100, 70])] := by decide +kernel

example : calculate demoEnv "max".toList {} demoData =
    [("k".toList, [7, 8, 9]), ("a".toList, [4, 6, 5]), ("d".toList, [4, 6, 5]), ("ab".toList, [40, 60, 50])] := by decide +kernel

example : calculate demoEnv "sum".toList { returnAll := true } demoData =
    [("k".toList, [7, 8, 9]), ("a".toList, [4, 10, 7]), ("d".toList, [99, 99, 99]), ("ab".toList, [40, 100, 70])] := by
  decide +kernel

/-- the hypotheses of `op_data` are met -/
example : (names demoData).Nodup ∧ (names demoEnv.gbkeys).Nodup ∧ "a".toList ∉ names demoEnv.gbkeys ∧
    at? demoData "a".toList = some (num 1 [1, 2, 3, 4, 5, 6]) ∧ accepts "sum".toList .number = true ∧
    demoEnv.agg "sum".toList (num 1 [1, 2, 3, 4, 5, 6]) = some [10, 7, 4] ∧
    (∀ rows, demoEnv.isort = some rows → ∀ i ∈ rows, i < [10, 7, 4].length) := by
  refine ⟨by decide +kernel, by decide +kernel, by decide +kernel, by decide +kernel, by decide +kernel, by decide +kernel, ?_⟩
  intro rows h
  have : rows = [2, 0, 1] := by simpa [demoEnv] using h.symm
  subst this; decide

example : gbSelect demoEnv demoData ["ab".toList] =
    some [("ab".toList, num 3 [10, 20, 30, 40, 50, 60]), ("k".toList, num 0 [8, 9, 8, 7, 9, 8])] := by decide +kernel

/-- `col_idx="ab"` is documented as a name; the column `a`, whose name is a part of it, is calculated too -/
theorem op_text_counterexample :
    ∃ (e : Env Nat) (data : List (Name × Col Nat)) (f s k : Name), ¬ (Sel.text s).Picks k ∧ k ∉ names e.gbkeys ∧
      at? (calculate e f { sel := some (.text s) } data) k = some [4, 10, 7] :=
  ⟨demoEnv, demoData, "sum".toList, "ab".toList, "a".toList, by unfold Sel.Picks; decide +kernel, by decide +kernel,
    by decide +kernel⟩

/-! ## Names of arrays -/

example : headerNames [some "a".toList, none, some "a".toList, some "a1".toList, some "a".toList] =
    ["a", "col_1", "a2", "a1", "a3"].map String.toList := by decide +kernel

/-- the condition of `headers_distinct` holds for arrays with names of which only one is repeated -/
example : NoDigitClash ["a".toList, "a".toList, "b1".toList] := by
  intro n hn m hm h1 h2 ds hds _ he
  have hna : n = "a".toList := by
    simp only [List.mem_cons, List.not_mem_nil, or_false] at hn
    rcases hn with rfl | rfl | rfl
    · rfl
    · rfl
    · exact absurd h1 (by decide +kernel)
  have hma : m = "a".toList := by
    simp only [List.mem_cons, List.not_mem_nil, or_false] at hm
    rcases hm with rfl | rfl | rfl
    · rfl
    · rfl
    · exact absurd h2 (by decide +kernel)
  rw [hna, hma] at he
  exact hds (by simpa using he)

/-- eleven arrays called `a` and two called `a1` -/
def clash : List (Option Name × Col Nat) :=
  (List.range 11).map (fun i => (some "a".toList, num i [i, i, i, i, i, i])) ++
    [(some "a1".toList, num 11 [50, 50, 50, 50, 50, 50]), (some "a1".toList, num 12 [60, 60, 60, 60, 60, 60])]

/-- the last `a` and the second `a1` are both called `a11`: of thirteen arrays twelve are calculated -/
theorem cat_arrays_counterexample :
    ∃ (e : Env Nat) (l : List (Option Name × Col Nat)) (t : List (Name × List Nat)),
      catOp e none "sum".toList {} [.arrays false l] none = some t ∧ l.length = 13 ∧
      ((names t).filter fun k => decide (k ∉ names e.gbkeys)).length = 12 ∧ ¬ (headerNames (l.map Prod.fst)).Nodup :=
  ⟨demoEnv, clash, _, rfl, by decide +kernel, by decide +kernel, by decide +kernel⟩

/-- an array with the name of the key is left out -/
theorem cat_keyname_counterexample :
    ∃ (e : Env Nat) (a : Col Nat) (t : List (Name × List Nat)),
      catOp e none "sum".toList {} [.arrays false [(some "k".toList, a)]] none = some t ∧ accepts "sum".toList a.kind = true ∧
      e.agg "sum".toList a = some [6, 3, 1] ∧ t = e.gbkeys :=
  ⟨demoEnv, num 5 [1, 1, 2, 1, 2, 3], _, rfl, by decide +kernel, by decide +kernel, by decide +kernel⟩

/-- a second array given as a further argument is ignored -/
theorem cat_second_counterexample :
    ∃ (e : Env Nat) (a b : Option Name × Col Nat) (t : List (Name × List Nat)),
      catOp e none "sum".toList {} [.arrays false [a], .arrays false [b]] none = some t ∧ a.1 = some "a".toList ∧
      b.1 = some "b".toList ∧ names t = ["a".toList, "k".toList] :=
  ⟨demoEnv, (some "a".toList, num 5 [1, 1, 2, 1, 2, 3]), (some "b".toList, num 6 [1, 1, 2, 1, 2, 3]), _, rfl, rfl, rfl,
    by decide +kernel⟩

/-- of a list of Datasets only the first is calculated -/
theorem cat_tables_counterexample :
    ∃ (e : Env Nat) (s u : List (Name × Col Nat)) (t : List (Name × List Nat)),
      catOp e none "sum".toList {} [.tables [s, u]] none = some t ∧ names s = ["a".toList] ∧ names u = ["b".toList] ∧
      names t = ["a".toList, "k".toList] :=
  ⟨demoEnv, [("a".toList, num 5 [1, 1, 2, 1, 2, 3])], [("b".toList, num 6 [1, 1, 2, 1, 2, 3])], _, rfl, rfl, rfl, by decide +kernel⟩

/-- arrays given to an operation of a GroupBy in a tuple are not calculated; a column of the Dataset given so is left out -/
theorem gb_tuple_counterexample :
    ∃ (e : Env Nat) (data : List (Name × Col Nat)) (x c : Col Nat) (t u : List (Name × List Nat)),
      at? data "a".toList = some c ∧
      gbOp e data "sum".toList {} [.arrays true [(some "x".toList, x)]] none = some t ∧ at? t "x".toList = none ∧
      gbOp e data "sum".toList {} [.arrays true [(some "a".toList, c)]] none = some u ∧ at? u "a".toList = none ∧
      at? u "ab".toList = some [40, 100, 70] :=
  ⟨demoEnv, demoData, num 9 [1, 1, 1, 1, 1, 1], num 1 [1, 2, 3, 4, 5, 6], _, _, by decide +kernel, rfl, by decide +kernel, rfl,
    by decide +kernel, by decide +kernel⟩

/-! ## `agg` -/

/-- `agg({"a": ["sum", np.amax], "ab": "max"})` -/
example : aggDict (fun f o => gbOp demoEnv demoData f o [] none) (names demoData) {}
    [("a".toList, [.text "sum".toList, .func "amax".toList]), ("ab".toList, [.text "max".toList])] =
    some [("Sum".toList, [("k".toList, [7, 8, 9]), ("a".toList, [4, 10, 7])]),
      ("Max".toList, [("k".toList, [7, 8, 9]), ("a".toList, [4, 6, 5]), ("ab".toList, [40, 60, 50])])] := by decide +kernel

/-- the hypotheses of `agg_dict_partial` are met by it -/
example : ∀ it ∈ [Item.text "sum".toList, .func "amax".toList, .text "max".toList], Plain it.op := by
  unfold Plain; decide +kernel

/-- `count` and `nth` are among the operations of `agg`, but asking for them fails; a key column is not aggregated -/
theorem agg_counterexample :
    "count".toList ∈ aggNames ∧ "nth".toList ∈ aggNames ∧
      (∀ (V : Type) (e : Env V) (data : List (Name × Col V)) (o : Opts),
        aggList (fun f o => gbOp e data f o [] none) o [.text "count".toList] = none ∧
        aggList (fun f o => gbOp e data f o [] none) o [.text "nth".toList] = none) ∧
      aggDict (fun f o => gbOp demoEnv demoData f o [] none) (names demoData) {} [("k".toList, [.text "sum".toList])] =
        some [("Sum".toList, demoEnv.gbkeys)] :=
  ⟨by decide +kernel, by decide +kernel, fun _ _ _ _ => ⟨rfl, rfl⟩, by decide +kernel⟩

/-! ## Quantiles and counts -/

/-- a stand-in for `f"{q:.{p}g}"` of quantiles in thousandths: `p` digits after the point -/
def demoFmt (p : Nat) (q : Nat) : Name := '0' :: '.' :: (Nat.toDigits 10 (1000 + q)).tail.take p

example : quantMulti ["k".toList] "_q".toList demoFmt 10
    (fun q => [("a".toList, q), ("b".toList, q + 1), ("k".toList, 0)]) [250, 500] =
    some [("a_q0_250".toList, 250), ("a_q0_500".toList, 500), ("b_q0_250".toList, 251), ("b_q0_500".toList, 501), ("k".toList, 0)] := by
  decide +kernel

example : PlainText (demoFmt 3 250) ∧ PlainText (demoFmt 3 500) ∧ ([250, 500].map (demoFmt (3 + 0))).Nodup := by
  unfold PlainText; decide +kernel

/-- a key with the name of a result is an error -/
theorem quant_counterexample :
    quantMulti ["a_q0_250".toList] "_q".toList demoFmt 10
      (fun q : Nat => [("a".toList, q), ("a_q0_250".toList, 0)]) [250, 500] = none := by decide +kernel

/-- 12.3456789012345% with NaNs left out -/
example : quantDecode (quantParam 123456789012345 1000000000000000 true) = (123456789, true) := by decide +kernel

example : countRows [1, 2, 1, 3, 1] 3 none = [some 3, some 1, some 3, some 1, some 3] := by decide +kernel

/-- a row that is in no group (filtered when the Categorical was made) gets the count of the last group -/
theorem countRows_counterexample :
    ∃ (ikey : List Nat) (n i : Nat), ikey[i]? = some 0 ∧ (countRows ikey n none)[i]? = some (some 2) :=
  ⟨[1, 0, 2, 2], 2, 1, by decide, by decide +kernel⟩

end Verif.GbCalc
