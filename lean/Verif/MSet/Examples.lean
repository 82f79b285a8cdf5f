import Verif.MSet.Rows
import Verif.MSet.Index
import Verif.MSet.Display
import Verif.MSet.FlatV
/-!
# Multisets: examples and disagreements
-/
namespace Verif.MSet

def nm (s : String) : Name := s.toList

/-! ## Rows (C146, C147, C152) -/

/-- containers are their number of rows -/
def rowsOf : Option Nat → Option Nat := id

def notMethod : Name → Bool := fun k => decide (k = nm "flatten")
def isValid : Name → Bool := fun k => decide (k ≠ nm "flatten")

theorem valid_not_method : ∀ k, isValid k = true → notMethod k = false := by
  intro k h
  simp only [isValid, notMethod, decide_eq_true_eq, decide_eq_false_iff_not] at *
  exact h

def twoRows : Multi (Option Nat) := ⟨[(nm "a", some 3), (nm "b", some 3)], some 3⟩

example : SameRows rowsOf twoRows := Or.inr ⟨by decide, 3, by decide, rfl, by decide⟩

/-- the hypotheses of `run_sameRows_partial`: a refused assignment, an accepted one, all items deleted, another number of rows -/
def history : List (Op (Option Nat)) :=
  [.item (nm "c") (some 5), .attr (nm "b") (some 3), .items [nm "a"] [some 3], .del (nm "a"), .del (nm "b"), .item (nm "d") (some 5)]

example : CarefulAll rowsOf notMethod isValid twoRows history := by
  refine ⟨⟨4, rfl⟩, ⟨⟨2, rfl⟩, by decide +kernel⟩, ?_, trivial, trivial, ⟨4, rfl⟩, trivial⟩
  intro v hv
  simp only [List.mem_singleton] at hv
  subst hv
  exact ⟨2, rfl⟩

example : history.foldl (step rowsOf notMethod isValid) twoRows = ⟨[(nm "d", some 5)], some 5⟩ := by decide +kernel

/-- `init_sameRows`: its hypotheses, and both outcomes -/
example : (∀ p ∈ twoRows.items, HasRows rowsOf p.2) ∧ (∀ p ∈ twoRows.items, p.1.head? ≠ some '_') ∧ (names twoRows.items).Nodup := by
  refine ⟨?_, by decide, by decide⟩
  intro p hp
  simp only [twoRows, List.mem_cons, List.not_mem_nil, or_false] at hp
  rcases hp with rfl | rfl <;> exact ⟨2, rfl⟩
example : init rowsOf twoRows.items = some twoRows := by decide +kernel
example : init rowsOf [(nm "a", some 3), (nm "b", some 4)] = none := by decide +kernel

/-- `assign_refused` -/
example : twoRows.items ≠ [] ∧ rowsOf (some 4) ≠ twoRows.nrows ∧ nm "a" ∈ names twoRows.items := by decide

/-- **C146** attributes assigned to a Multiset without items are not compared with each other -/
theorem attr_rows_counterexample : ∃ (ops : List (Op (Option Nat))),
    (∀ op ∈ ops, ∃ k v, op = .attr k v ∧ HasRows rowsOf v) ∧
      ops.foldl (step rowsOf notMethod isValid) ⟨[], none⟩ = ⟨[(nm "a", some 3), (nm "b", some 5)], none⟩ :=
  ⟨[.attr (nm "a") (some 3), .attr (nm "b") (some 5)],
    fun op h => by
      simp only [List.mem_cons, List.not_mem_nil, or_false] at h
      rcases h with rfl | rfl
      · exact ⟨_, _, rfl, 2, rfl⟩
      · exact ⟨_, _, rfl, 4, rfl⟩, by decide +kernel⟩

/-- **C146** a Dataset without rows is accepted, and then any other -/
theorem zero_rows_counterexample :
    init rowsOf [(nm "a", some 0), (nm "b", some 3)] = some ⟨[(nm "a", some 0), (nm "b", some 3)], some 3⟩ ∧
      setItem rowsOf notMethod isValid ⟨[(nm "a", some 0)], some 0⟩ (nm "b") (some 3) =
        some ⟨[(nm "a", some 0), (nm "b", some 3)], some 3⟩ := by decide +kernel

/-- `setItem_at` and `setItems_partial` -/
example : setItem rowsOf notMethod isValid twoRows (nm "c") (some 3) =
    some ⟨[(nm "a", some 3), (nm "b", some 3), (nm "c", some 3)], some 3⟩ := by decide +kernel
example : [nm "b", nm "a"].Nodup ∧ (∀ k ∈ [nm "b", nm "a"], k ∈ names twoRows.items) ∧
    ∀ v ∈ [some 3, some 3], rowsOf v = twoRows.nrows := by decide

/-- **C147** fewer values than names: the names left over keep what they had, nothing is raised -/
theorem setItems_short_counterexample :
    setItems (fun (p : Nat × Nat) => some p.1) notMethod ⟨[(nm "a", (3, 0)), (nm "b", (3, 0))], some 3⟩ [nm "a", nm "b"] [(3, 1)] =
      (⟨[(nm "a", (3, 1)), (nm "b", (3, 0))], some 3⟩, false) := by decide +kernel

/-- **C147** a value with other rows: what comes before it stays assigned -/
theorem setItems_torn_counterexample :
    setItems (fun (p : Nat × Nat) => some p.1) notMethod ⟨[(nm "a", (3, 0)), (nm "b", (3, 0))], some 3⟩ [nm "a", nm "b"]
      [(3, 1), (4, 1)] = (⟨[(nm "a", (3, 1)), (nm "b", (3, 0))], some 3⟩, true) := by decide +kernel

/-- `cascade_exact` -/
example : cascade rowsOf notMethod isValid (fun n : Nat => some (some (n + 1))) [(nm "a", 2), (nm "b", 2)] = some twoRows := by
  decide +kernel
example : ∀ k ∈ names [(nm "a", 2), (nm "b", 2)], isValid k = true := by decide +kernel

/-! ## Indexing (C148, C149) -/

def dsAB (x : Nat) : DS Nat := ⟨[(nm "k", [1, 2, 3]), (nm "b", [x, x + 1, x + 2])], [nm "k"]⟩

def nested : Items Nat := .cons (nm "P") (.ds (dsAB 10)) (.cons (nm "Q") (.ms (.cons (nm "R") (.ds (dsAB 20)) .nil)) .nil)

def firstTwo : List Nat → List Nat := fun l => l.take 2

/-- `get_list`, `get_item`, `get_column_partial` -/
example : (∀ p ∈ nested.leaves, ∀ k ∈ [nm "b", nm "k"], k ∈ names p.2.cols) ∧ [nm "b", nm "k"].Nodup := by decide +kernel
example : nested.get (.many firstTwo) (.list [nm "b"]) = some (.ms
    (.cons (nm "P") (.ds ⟨[(nm "b", [10, 11])], []⟩) (.cons (nm "Q") (.ms (.cons (nm "R") (.ds ⟨[(nm "b", [20, 21])], []⟩) .nil)) .nil))) := by
  decide +kernel
example : nested.at? (nm "P") = some (.ds (dsAB 10)) := by decide +kernel
example : nested.Free (nm "b") := by
  simp only [nested, Items.Free, Elem.Free]
  decide
example : nested.get .all (.name (nm "b")) = some (.ms
    (.cons (nm "P") (.ds ⟨[(nm "b", [10, 11, 12])], []⟩)
      (.cons (nm "Q") (.ms (.cons (nm "R") (.ds ⟨[(nm "b", [20, 21, 22])], []⟩) .nil)) .nil))) := by decide +kernel

/-- **C149** one row of one column of a Multiset cannot be taken: `ms[0, 'b']` raises, while `ms[[0], 'b']` does not -/
theorem get_one_counterexample :
    nested.get (.one fun l => l.take 1) (.name (nm "b")) = none ∧ nested.get (.many fun l => l.take 1) (.name (nm "b")) ≠ none := by
  decide +kernel

/-- **C149** `ms[[0]]` is not the first Dataset: the name of the first Dataset is looked for among the columns -/
theorem get_pos_counterexample :
    nested.names[0]? = some (nm "P") ∧ nested.get .all (.pos [0]) = none ∧ nested.get .all (.name (nm "P")) ≠ none := by
  decide +kernel

/-- `multiget_list` -/
example : multiget [(nm "P", dsAB 10), (nm "Q", ⟨[(nm "c", [7])], []⟩)] (.list [nm "b", nm "zz"]) =
    some [(nm "P", ⟨[(nm "b", [10, 11, 12])], []⟩)] := by decide +kernel

/-- **C149** `multiget` with a text looks for its characters -/
theorem multiget_text_counterexample :
    multiget [(nm "P", (⟨[(nm "ab", [1]), (nm "a", [2])], []⟩ : DS Nat))] (.text (nm "ab")) = some [(nm "P", ⟨[(nm "a", [2])], []⟩)] ∧
      multiget [(nm "P", (⟨[(nm "ab", [1]), (nm "a", [2])], []⟩ : DS Nat))] (.list [nm "ab"]) = some [(nm "P", ⟨[(nm "ab", [1])], []⟩)] := by
  decide +kernel

/-! ## Display (C150) -/

def shown : List (Name × List (Name × Nat)) :=
  [(nm "P", [(nm "k", 0), (nm "a", 1), (nm "b", 2)]), (nm "Q", [(nm "k", 0), (nm "b", 3), (nm "c", 4)])]

/-- `headers_partial` -/
example : [nm "k"].Nodup ∧ (∀ p ∈ shown, (names p.2).Nodup) ∧ ∀ p ∈ shown, ∀ k ∈ [nm "k"], k ∈ names p.2 := by decide
example : headers [nm "k"] (names shown) (shown.map Prod.snd) =
    some ⟨[(nm "a", 1), (nm "b", 2), (nm "c", 1)], [nm "P", nm "P", nm "Q", nm "Q"], [1, 2, 3, 4]⟩ := by decide +kernel
example : Shows [(nm "P", without [nm "k"] [(nm "k", 0), (nm "a", 1)])] (headersOne [nm "k"] (nm "P") [(nm "k", 0), (nm "a", 1)]) :=
  headersOne_shows _ _ _ (by decide)

/-- **C150** a Multiset with Multisets inside (two Datasets in the first item, one in the second): the second Dataset of the first
item is shown under the name of the second item, and the Dataset of the second item is not shown -/
theorem headers_nested_counterexample :
    headers [] [nm "M", nm "N"] [[(nm "a", 1)], [(nm "b", 2)], [(nm "c", 3)]] =
      some ⟨[(nm "a", 1), (nm "b", 1)], [nm "M", nm "N"], [1, 2]⟩ := by decide +kernel

/-- **C150** a key that one Dataset does not have: nothing can be shown -/
theorem headers_key_counterexample :
    headers [nm "k"] [nm "M", nm "N"] [[(nm "k", 0), (nm "a", 1)], [(nm "a", 2)]] = none := by decide +kernel

/-! ## Flattening side by side (C151) -/

/-- `flatten_side` -/
example : ∀ p ∈ nested.leaves, p.2.Good := by
  intro p hp
  simp only [nested, Items.leaves, Elem.leaves, List.map_cons, List.map_nil, List.cons_append, List.nil_append, List.mem_cons,
    List.not_mem_nil, or_false, List.append_nil] at hp
  rcases hp with rfl | rfl <;> (unfold DS.Good; decide)
example : flattenH (nm "_") nested = some ⟨[(nm "k", [1, 2, 3]), (nm "P_b", [10, 11, 12]), (nm "Q_R_b", [20, 21, 22])], [nm "k"]⟩ := by
  decide +kernel

/-- `flatten_done` -/
def three : List (Name × DS Nat) := [(nm "P", dsAB 10), (nm "Q", dsAB 20), (nm "R", dsAB 30)]
example : (∀ q ∈ three, Joinable '_' [nm "k"] 3 q) ∧ (names three).Nodup := by
  refine ⟨?_, by decide⟩
  intro q hq
  simp only [three, List.mem_cons, List.not_mem_nil, or_false] at hq
  rcases hq with rfl | rfl | rfl <;> (unfold Joinable DS.Ok; decide)

/-- **C154** Datasets without labels cannot be flattened side by side -/
theorem flatten_unlabelled_counterexample :
    flattenH (nm "_") (flat [(nm "P", (⟨[(nm "b", [1])], []⟩ : DS Nat))]) = none ∧
      flattenH (nm "_") (flat [(nm "P", (⟨[(nm "b", [1])], []⟩ : DS Nat)), (nm "Q", ⟨[(nm "b", [2])], []⟩)]) = none := by decide +kernel

/-- without labels and with rows it always fails -/
theorem flatten_unlabelled (delim n : Name) (d : DS V) (hr : 0 < d.rows) (hd : d.Ok d.rows) (hl : d.labels = []) (rest : Items V) :
    flattenH delim (.cons n (.ds d) rest) = none := by
  cases h : flattenH delim (.cons n (.ds d) rest) with
  | none => rfl
  | some r =>
    exfalso
    simp only [flattenH, Elem.flatH, Items.flatH, Option.bind_some, Option.bind_eq_some_iff] at h
    obtain ⟨s, ⟨q, h1, _⟩, _⟩ := h
    unfold stepH at h1
    simp only [hl, if_true, Option.bind_some, Option.bind_eq_some_iff] at h1
    obtain ⟨vals, h2, d', h3, _⟩ := h1
    have hv := take_values d vals ⟨hd.1, hd.2.2.1, hd.2.2.2⟩ (by rw [hl]; exact h2)
    unfold besides at h3
    split at h3
    · rename_i hc
      have : vals.rows = d.rows := by
        apply rows_eq
        · rw [hv]
          intro e
          have : d.values = d.cols := by unfold DS.values; rw [hl]; simp
          rw [this] at e
          unfold DS.rows at hr
          rw [e] at hr
          exact absurd hr (by simp)
        · intro c hcm
          rw [hv] at hcm
          exact hd.2.1 c (mem_values hcm).1
      have h0 := hc.1
      rw [this] at h0
      simp only [DS.rows] at h0
      unfold DS.rows at hr
      omega
    · simp at h3

example : 0 < (⟨[(nm "b", [1])], []⟩ : DS Nat).rows ∧ (⟨[(nm "b", [1])], []⟩ : DS Nat).Ok 1 := by
  unfold DS.Ok; decide

/-- **C154** joined names that are all different are not enough: `A_b` and `B_A_b`, but `A_b` is there while `B` is renamed -/
theorem flatten_step_counterexample :
    flattenH (nm "_") (.cons (nm "A") (.ds ⟨[(nm "k", [1]), (nm "b", [2])], [nm "k"]⟩)
      (.cons (nm "B") (.ms (.cons (nm "A") (.ds (⟨[(nm "k", [1]), (nm "b", [3])], [nm "k"]⟩ : DS Nat)) .nil)) .nil)) = none := by
  decide +kernel

/-- **C154** a Dataset with columns `b` and `A_b` under the name `A` -/
theorem flatten_self_counterexample :
    flattenH (nm "_") (flat [(nm "A", (⟨[(nm "k", [1]), (nm "b", [2]), (nm "A_b", [3])], [nm "k"]⟩ : DS Nat))]) = none := by
  decide +kernel

/-- **C154** a Dataset with labels only -/
theorem flatten_labels_only_counterexample :
    flattenH (nm "_") (flat [(nm "A", (⟨[(nm "k", [1])], [nm "k"]⟩ : DS Nat))]) = none := by decide +kernel

/-- **C154** rows are put side by side whatever their labels are: the row labelled 2 of the second Dataset is put beside the row
labelled 1 of the first -/
theorem flatten_labels_mixed_counterexample :
    flattenH (nm "_") (flat [(nm "A", (⟨[(nm "k", [1, 2]), (nm "b", [10, 20])], [nm "k"]⟩ : DS Nat)),
      (nm "B", ⟨[(nm "k", [2, 1]), (nm "b", [20, 10])], [nm "k"]⟩)]) =
      some ⟨[(nm "k", [1, 2]), (nm "A_b", [10, 20]), (nm "B_b", [20, 10])], [nm "k"]⟩ := by decide +kernel

/-! ## Flattening one below another (C153) -/

/-- values that are texts -/
def texts : Text Name := ⟨id, some⟩

theorem texts_lawful : texts.Lawful := fun _ => rfl

def dsT (x : Name) : DS Name := ⟨[(nm "k", [nm "u", nm "v"]), (nm "b", [x, x])], [nm "k"]⟩

def nestedT : Items Name := .cons (nm "P") (.ds (dsT (nm "p"))) (.cons (nm "Q") (.ms (.cons (nm "R") (.ds (dsT (nm "r"))) .nil)) .nil)

example : flattenV texts (nm "_") (nm "Column") nestedT = some ⟨[(nm "k", [nm "u", nm "v", nm "u", nm "v"]),
    (nm "Column", [nm "P", nm "P", nm "Q_R", nm "Q_R"]), (nm "b", [nm "p", nm "p", nm "r", nm "r"])], [nm "k"]⟩ := by decide +kernel

/-- `flatten_below_done` -/
example : (∀ p ∈ nestedT.leaves, Stackable (nm "Column") [nm "k"] [nm "b"] p.2) ∧ nestedT.Full ∧ Deep (nm "_") [nm "k"] nestedT.leaves := by
  refine ⟨?_, ?_, ?_⟩
  · intro p hp
    simp only [nestedT, Items.leaves, Elem.leaves, List.map_cons, List.map_nil, List.cons_append, List.nil_append, List.mem_cons,
      List.not_mem_nil, or_false, List.append_nil] at hp
    rcases hp with rfl | rfl <;> (unfold Stackable DS.Ok; decide)
  · simp [nestedT, Items.Full, Elem.Full]
  · unfold Deep
    refine ⟨by decide, by decide, ?_⟩
    simp only [nestedT, Items.leaves, Elem.leaves]
    decide

/-- **C155** Multisets inside without labels -/
theorem flatten_below_unlabelled_counterexample :
    flattenV texts (nm "_") (nm "Column") (.cons (nm "Q") (.ms (.cons (nm "R") (.ds ⟨[(nm "b", [nm "x"])], []⟩) .nil)) .nil) = none ∧
      flattenV texts (nm "_") (nm "Column") (.cons (nm "R") (.ds ⟨[(nm "b", [nm "x"])], []⟩) .nil) ≠ none := by decide +kernel

/-- **C155** Multisets inside with names that are not ASCII -/
theorem flatten_below_unicode_counterexample :
    flattenV texts (nm "_") (nm "Column") (.cons (nm "Q") (.ms (.cons (nm "Ä") (.ds (dsT (nm "x"))) .nil)) .nil) = none ∧
      flattenV texts (nm "_") (nm "Column") (.cons (nm "Ä") (.ds (dsT (nm "x"))) .nil) ≠ none := by decide +kernel

/-- **C154**, **C155** an empty Multiset, alone or inside another -/
theorem flatten_empty_counterexample :
    flattenH (nm "_") (.nil : Items Name) = none ∧ flattenV texts (nm "_") (nm "Column") .nil = none ∧
      flattenV texts (nm "_") (nm "Column") (.cons (nm "P") (.ds (dsT (nm "x"))) (.cons (nm "Q") (.ms .nil) .nil)) = none := by
  decide +kernel

/-! ## Labels -/

/-- **C152** `label_fixup`: the labels of the first Dataset that has some, however they differ from those of the others -/
theorem labelFixup_first {V : Type} (l : List (Name × DS V)) :
    labelFixup l = (l.find? fun p => decide (p.2.labels ≠ [])).map fun p => p.2.labelCols := by
  induction l with
  | nil => rfl
  | cons p l ih =>
    rw [labelFixup, List.find?_cons]
    by_cases h : p.2.labels = [] <;> simp [h, ih]

end Verif.MSet
