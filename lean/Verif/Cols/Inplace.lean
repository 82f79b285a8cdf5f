import Verif.Cols.Binary

/-!
# Properties: arithmetic in place (C87)
-/
namespace Verif.Cols
open Verif.Items (Dict)
open Spec

variable {V : Type}

theorem touched_cons (labels : List String) (n : String) (c : Bool) (a : Nat) (cs : List (String × Bool × Nat)) :
    touched labels ((n, c, a) :: cs) = if c = true ∧ n ∉ labels then a :: touched labels cs else touched labels cs := by
  unfold touched
  by_cases h : c = true ∧ n ∉ labels
  · rw [if_pos h, List.filter_cons_of_pos (by simp [h.1, h.2])]; rfl
  · rw [if_neg h, List.filter_cons_of_neg (by
      intro h'
      simp at h'
      exact h h')]

/-- **C87.** `ds += x` as long as nothing raises: an array in memory is changed as many times as
there are computable columns that are not labels and share it. -/
theorem inplace_exact (f : List V → Except Err (List V)) (g : List V → List V) (labels : List String) (hf : ∀ xs, f xs = .ok (g xs)) :
    ∀ (cols : List (String × Bool × Nat)) (h : List (List V)), (∀ e ∈ cols, e.2.2 < h.length) →
    (inplace f labels cols h).2 = none ∧ (inplace f labels cols h).1.length = h.length ∧
    ∀ a : Nat, (inplace f labels cols h).1[a]? = h[a]?.map (times g ((touched labels cols).count a)) := by
  intro cols
  induction cols with
  | nil => intro h _; simp [inplace, touched, times, Function.comp_def]
  | cons e es ih =>
    intro h hb
    obtain ⟨n, c, a⟩ := e
    have ha : a < h.length := hb (n, c, a) (by simp)
    rw [touched_cons]
    by_cases hc : c = true ∧ n ∉ labels
    · simp only [inplace, if_pos hc, hf]
      obtain ⟨h1, h2, h3⟩ := ih (h.set a (g (h.getD a []))) (by
        intro e he; rw [List.length_set]; exact hb e (List.mem_cons_of_mem _ he))
      refine ⟨h1, by rw [h2, List.length_set], ?_⟩
      intro b
      rw [h3 b]
      by_cases hab : a = b
      · subst hab
        simp [ha, times, List.getElem?_eq_getElem ha]
      · rw [List.getElem?_set_ne hab, List.count_cons_of_ne hab]
    · simp only [inplace, if_neg hc]
      exact ih h fun e he => hb e (List.mem_cons_of_mem _ he)

/-- **C87, columns with arrays of their own**: each is changed once, all other memory stays. -/
theorem inplace_once (f : List V → Except Err (List V)) (g : List V → List V) (labels : List String) (hf : ∀ xs, f xs = .ok (g xs))
    (cols : List (String × Bool × Nat)) (h : List (List V)) (hb : ∀ e ∈ cols, e.2.2 < h.length) (hn : (cols.map fun e => e.2.2).Nodup) :
    (inplace f labels cols h).2 = none ∧
    (∀ n a xs, (n, true, a) ∈ cols → n ∉ labels → h[a]? = some xs → (inplace f labels cols h).1[a]? = some (g xs)) ∧
    (∀ a, (∀ n, (n, true, a) ∈ cols → n ∈ labels) → (inplace f labels cols h).1[a]? = h[a]?) := by
  obtain ⟨h1, _, h3⟩ := inplace_exact f g labels hf cols h hb
  have hnd : (touched labels cols).Nodup := hn.sublist (List.Sublist.map _ List.filter_sublist)
  have hmem : ∀ a, a ∈ touched labels cols ↔ ∃ n, (n, true, a) ∈ cols ∧ n ∉ labels := by
    intro a
    simp only [touched, List.mem_map, List.mem_filter]
    constructor
    · rintro ⟨⟨n, c, b⟩, ⟨he, hp⟩, rfl⟩
      simp at hp
      exact ⟨n, by rw [← hp.1]; exact he, hp.2⟩
    · rintro ⟨n, he, hl⟩
      exact ⟨(n, true, a), ⟨he, by simp [hl]⟩, rfl⟩
  refine ⟨h1, ?_, ?_⟩
  · intro n a xs he hl hx
    have hc : (touched labels cols).count a = 1 := List.count_eq_one_of_mem hnd ((hmem a).2 ⟨n, he, hl⟩)
    rw [h3 a, hc, hx]; rfl
  · intro a ha
    have hc : (touched labels cols).count a = 0 := by
      rw [List.count_eq_zero]
      intro hm
      obtain ⟨n, he, hl⟩ := (hmem a).1 hm
      exact hl (ha n he)
    rw [h3 a, hc]
    cases h[a]? <;> rfl

theorem inplace_append (f : List V → Except Err (List V)) (labels : List String) : ∀ (pre post : List (String × Bool × Nat)) (h : List (List V)),
    (inplace f labels pre h).2 = none → inplace f labels (pre ++ post) h = inplace f labels post (inplace f labels pre h).1 := by
  intro pre
  induction pre with
  | nil => intro post h _; rfl
  | cons e es ih =>
    intro post h hn
    obtain ⟨n, c, a⟩ := e
    by_cases hc : c = true ∧ n ∉ labels
    · simp only [List.cons_append, inplace, if_pos hc] at hn ⊢
      cases hf : f (h.getD a []) with
      | error e => rw [hf] at hn; simp at hn
      | ok xs =>
        rw [hf] at hn
        simp only at hn ⊢
        exact ih post _ hn
    · simp only [List.cons_append, inplace, if_neg hc] at hn ⊢
      exact ih post _ hn

theorem inplace_congr (f : List V → Except Err (List V)) (g : List V → List V) (labels : List String) :
    ∀ (cols : List (String × Bool × Nat)) (h : List (List V)), (cols.map fun e => e.2.2).Nodup →
    (∀ n a, (n, true, a) ∈ cols → n ∉ labels → f (h.getD a []) = .ok (g (h.getD a []))) →
    inplace f labels cols h = inplace (fun xs => .ok (g xs)) labels cols h := by
  intro cols
  induction cols with
  | nil => intro h _ _; rfl
  | cons e es ih =>
    intro h hn hf
    obtain ⟨n, c, a⟩ := e
    rw [List.map_cons, List.nodup_cons] at hn
    by_cases hc : c = true ∧ n ∉ labels
    · have h1 := hf n a (by rw [hc.1]; simp) hc.2
      simp only [inplace, if_pos hc, h1]
      apply ih _ hn.2
      intro n' b hm hl
      have hab : a ≠ b := by
        intro h'
        exact hn.1 (List.mem_map.2 ⟨_, hm, h'.symm⟩)
      have h2 : (h.set a (g (h.getD a []))).getD b [] = h.getD b [] := by
        simp only [List.getD_eq_getElem?_getD, List.getElem?_set_ne hab]
      rw [h2]
      exact hf n' b (List.mem_cons_of_mem _ hm) hl
    · simp only [inplace, if_neg hc]
      exact ih h hn.2 fun n a hm => hf n a (List.mem_cons_of_mem _ hm)

/-- **C87, when a column fails**: the columns before it are changed and stay changed; the others
are not. -/
theorem inplace_failure (f : List V → Except Err (List V)) (g : List V → List V) (labels : List String) (pre post : List (String × Bool × Nat))
    (n : String) (a : Nat) (h : List (List V)) (hl : n ∉ labels) (hb : ∀ e ∈ pre, e.2.2 < h.length)
    (hn : ((pre ++ (n, true, a) :: post).map fun e => e.2.2).Nodup)
    (hf : ∀ m b, (m, true, b) ∈ pre → m ∉ labels → f (h.getD b []) = .ok (g (h.getD b []))) (e : Err) (he : f (h.getD a []) = .error e) :
    (inplace f labels (pre ++ (n, true, a) :: post) h).2 = some e ∧
    (∀ m b xs, (m, true, b) ∈ pre → m ∉ labels → h[b]? = some xs → (inplace f labels (pre ++ (n, true, a) :: post) h).1[b]? = some (g xs)) ∧
    (∀ b, (∀ m, (m, true, b) ∈ pre → m ∈ labels) → (inplace f labels (pre ++ (n, true, a) :: post) h).1[b]? = h[b]?) := by
  rw [List.map_append, List.map_cons] at hn
  have hpn : (pre.map fun e => e.2.2).Nodup := List.Nodup.of_append_left hn
  have hpa : ∀ m, (m, true, a) ∈ pre → m ∈ labels := by
    intro m hm
    exact absurd (List.mem_cons_self) (fun h' => (List.disjoint_of_nodup_append hn) (List.mem_map.2 ⟨_, hm, rfl⟩) h')
  have hpre := inplace_congr f g labels pre h hpn hf
  obtain ⟨h1, h2, h3⟩ := inplace_once (fun xs => .ok (g xs)) g labels (fun _ => rfl) pre h hb hpn
  rw [← hpre] at h1 h2 h3
  have h4 : (inplace f labels pre h).1.getD a [] = h.getD a [] := by
    rw [List.getD_eq_getElem?_getD, List.getD_eq_getElem?_getD, h3 a hpa]
  have h5 : inplace f labels (pre ++ (n, true, a) :: post) h = ((inplace f labels pre h).1, some e) := by
    rw [inplace_append f labels pre _ h h1]
    simp only [inplace, hl, not_false_eq_true, and_self, if_true, h4, he]
  rw [h5]
  exact ⟨rfl, h2, h3⟩

/-! ## Cases -/

/-- adding one, as a function that returns a computable array -/
def addOne (xs : List Int) : Except Err (Out Int) := .ok (some ⟨true, xs.map (· + 1)⟩)

/-- addition of an operand -/
def addArg (xs : List Int) : Arg Int → Except Err (Out Int)
  | .one v => .ok (some ⟨true, xs.map (· + v)⟩)
  | .arr ys => if xs.length = ys.length then .ok (some ⟨true, List.zipWith (· + ·) xs ys⟩) else .error .func

/-- a table: a label, a string column, a number, and a summary -/
def table : Ds Int :=
  { cols := [("k", ⟨true, [7, 8]⟩), ("s", ⟨false, [1, 2]⟩), ("x", ⟨true, [10, 20]⟩), ("Total", ⟨true, [30, 40]⟩)]
    labels := ["k"], summaries := ["Total"], footers := [("Sum", [none, some 3, some 30, some 70])] }

example : Wf table :=
  ⟨by decide, by decide, by decide, by decide, by decide, by decide, by decide⟩

/-- the label and the strings stay, the rest is computed, the footer is computed and renamed -/
example : applyCols addOne (.all .no) false table = .ok (some
    { cols := [("k", ⟨true, [7, 8]⟩), ("s", ⟨false, [1, 2]⟩), ("x", ⟨true, [11, 21]⟩), ("Summary0", ⟨true, [31, 41]⟩)]
      labels := ["k"], summaries := ["Summary0"], footers := [("Footer0", [none, some 4, some 31, some 71])] }) := by
  decide +kernel

/-- the hypotheses of `footers_partial` hold for the table -/
example : table.cols.keys = table.labels ++ ["s", "x", "Total"] ∧
    ["s", "x", "Total"].filter (fun n => decide (n ∈ table.summaries)) = table.summaries ∧
    table.footers.map (fun e => e.2.drop table.labels.length) = [[3, 30, 70]].map (·.map some) := by decide

/-- two tables that conform -/
example : conforms table (.ds { table with cols := [("k", ⟨true, [7, 8]⟩), ("x", ⟨true, [1, 1]⟩), ("z", ⟨true, [2, 2]⟩), ("Other", ⟨true, [5, 6]⟩)],
                                           summaries := ["Other"] }) = true ∧
    applyOther addArg 0 (.all .no) table (.ds { table with
      cols := [("k", ⟨true, [7, 8]⟩), ("x", ⟨true, [1, 1]⟩), ("z", ⟨true, [2, 2]⟩), ("Other", ⟨true, [5, 6]⟩)], summaries := ["Other"] })
    = .ok (some { cols := [("k", ⟨true, [7, 8]⟩), ("s", ⟨false, [1, 2]⟩), ("x", ⟨true, [11, 21]⟩), ("Summary0", ⟨true, [35, 46]⟩)]
                  labels := ["k"], summaries := ["Summary0"], footers := [("Footer0", [none, some 6, some 60, some 140])] }) := by
  decide +kernel

/-- the summary of the other table has another length: `summary_length_raises` -/
example : conforms table (.ds { table with cols := [("k", ⟨true, [7, 8]⟩), ("y", ⟨true, [1, 1]⟩), ("z", ⟨true, [2, 2]⟩), ("Other", ⟨true, [5, 6, 7]⟩)],
                                           summaries := ["Other"] }) = true ∧
    applyOther addArg 0 (.all .no) table (.ds { table with
      cols := [("k", ⟨true, [7, 8]⟩), ("y", ⟨true, [1, 1]⟩), ("z", ⟨true, [2, 2]⟩), ("Other", ⟨true, [5, 6, 7]⟩)], summaries := ["Other"] })
    = .error .value := by
  decide +kernel

/-- **C86, the order of the columns of the other operand does not matter** (without summaries). -/
example : applyOther addArg 0 (.all .no) { cols := [("x", ⟨true, [1, 2]⟩), ("y", ⟨true, [3, 4]⟩)], labels := [], summaries := [], footers := [] }
      (.struct [("z", .one 5), ("y", .arr [10, 20]), ("x", .one 100)])
    = .ok (some { cols := [("x", ⟨true, [101, 102]⟩), ("y", ⟨true, [13, 24]⟩)], labels := [], summaries := [], footers := [] }) := by
  decide +kernel

/-- **C85, counterexample.** A column that happens to be called `Summary0` makes any arithmetic
with a table with a summary raise. -/
theorem summary_name_counterexample :
    Taken ["Summary0", "Total"] ["Total"] ∧
    applyCols addOne (.all .no) false { cols := [("Summary0", ⟨true, [1]⟩), ("Total", ⟨true, [3]⟩)], labels := [], summaries := ["Total"], footers := [] }
      = .error .value := by
  refine ⟨⟨0, by decide, by decide, ?_⟩, by decide +kernel⟩
  intro j hj
  have : j = 0 := by omega
  subst this
  decide

/-- **C86, counterexample.** With another table instead of a number that column is lost without a
word: the summary takes its place. -/
theorem summary_lost_counterexample :
    let d : Ds Int := { cols := [("Summary0", ⟨true, [1]⟩), ("Total", ⟨true, [3]⟩)], labels := [], summaries := ["Total"], footers := [] }
    Wf d ∧ applyOther addArg 0 (.all .no) d (.ds d) =
      .ok (some { cols := [("Summary0", ⟨true, [6]⟩)], labels := [], summaries := ["Summary0"], footers := [] }) :=
  ⟨⟨by decide, by decide, by decide, by decide, by decide, by decide, by decide⟩, by decide +kernel⟩

/-- **C88, counterexample.** One column without a footer value: the whole footer row is kept as it
was, next to the new columns. -/
theorem footer_stale_counterexample :
    let d : Ds Int := { cols := [("x", ⟨true, [1, 2]⟩), ("y", ⟨true, [3, 4]⟩)], labels := [], summaries := [], footers := [("Sum", [some 3, none])] }
    Wf d ∧ applyCols addOne (.all .no) false d = .ok (some
      { cols := [("x", ⟨true, [2, 3]⟩), ("y", ⟨true, [4, 5]⟩)], labels := [], summaries := [], footers := [("Footer0", [some 3, none])] }) :=
  ⟨⟨by decide, by decide, by decide, by decide, by decide, by decide, by decide⟩, by decide +kernel⟩

/-- **C88, counterexample.** Summaries named in another order than the columns are in: the footers
of the two summaries are swapped. -/
theorem footer_swapped_counterexample :
    let d : Ds Int := { cols := [("p", ⟨true, [1]⟩), ("q", ⟨true, [2]⟩)], labels := [], summaries := ["q", "p"], footers := [("Sum", [some 10, some 20])] }
    Wf d ∧ applyCols addOne (.all .no) false d = .ok (some
      { cols := [("Summary1", ⟨true, [2]⟩), ("Summary0", ⟨true, [3]⟩)], labels := [], summaries := ["Summary0", "Summary1"],
        footers := [("Footer0", [some 21, some 11])] }) :=
  ⟨⟨by decide, by decide, by decide, by decide, by decide, by decide, by decide⟩, by decide +kernel⟩

/-- **C88, counterexample.** Labels that are not the first columns: the footer of the first column
is lost and the footer of the label is computed. -/
theorem footer_label_counterexample :
    let d : Ds Int := { cols := [("x", ⟨true, [1]⟩), ("k", ⟨true, [7]⟩)], labels := ["k"], summaries := [], footers := [("Sum", [some 10, some 7])] }
    Wf d ∧ applyCols addOne (.all .no) false d = .ok (some
      { cols := [("x", ⟨true, [2]⟩), ("k", ⟨true, [7]⟩)], labels := ["k"], summaries := [], footers := [("Footer0", [none, some 8])] }) :=
  ⟨⟨by decide, by decide, by decide, by decide, by decide, by decide, by decide⟩, by decide +kernel⟩

/-- **C88, counterexample.** An array of two rows added to a table of two rows and two columns is
added to the footer as well, row by column. -/
theorem footer_array_counterexample :
    let d : Ds Int := { cols := [("x", ⟨true, [1, 2]⟩), ("y", ⟨true, [3, 4]⟩)], labels := [], summaries := [], footers := [("Sum", [some 3, some 7])] }
    Wf d ∧ applyCols (fun xs => addArg xs (.arr [100, 200])) (.all .no) false d = .ok (some
      { cols := [("x", ⟨true, [101, 202]⟩), ("y", ⟨true, [103, 204]⟩)], labels := [], summaries := [], footers := [("Footer0", [some 103, some 207])] }) :=
  ⟨⟨by decide, by decide, by decide, by decide, by decide, by decide, by decide⟩, by decide +kernel⟩

/-- **C86, C88, counterexample.** One label less in the other table: the result has no summary and
no footer any more. -/
theorem not_conform_counterexample :
    let d : Ds Int := { cols := [("k", ⟨true, [1]⟩), ("T", ⟨true, [3]⟩)], labels := ["k"], summaries := ["T"], footers := [("Sum", [none, some 3])] }
    Wf d ∧ Wf { d with labels := [] } ∧ applyOther addArg 0 (.all .no) d (.ds { d with labels := [] }) =
      .ok (some { cols := [("k", ⟨true, [1]⟩), ("T", ⟨true, [6]⟩)], labels := ["k"], summaries := [], footers := [] }) :=
  ⟨⟨by decide, by decide, by decide, by decide, by decide, by decide, by decide⟩,
   ⟨by decide, by decide, by decide, by decide, by decide, by decide, by decide⟩, by decide +kernel⟩

/-- **C85, counterexample.** A dictionary of fill values is looked up by the name of the column
with a number, but under the name `a` for every column with another table. -/
theorem fill_name_counterexample :
    let d : Ds Int := { cols := [("s", ⟨false, [1]⟩), ("x", ⟨true, [5]⟩)], labels := [], summaries := [], footers := [] }
    let neg : Fill Int := .func fun xs => .ok (some ⟨false, xs.map (- ·)⟩)
    applyCols (fun xs => addArg xs (.one 1)) (.byName [("s", neg)]) false d
      = .ok (some { cols := [("s", ⟨false, [-1]⟩), ("x", ⟨true, [6]⟩)], labels := [], summaries := [], footers := [] }) ∧
    applyOther addArg 0 (.byName [("s", neg)]) d (.ds d)
      = .ok (some { cols := [("s", ⟨false, [1]⟩), ("x", ⟨true, [10]⟩)], labels := [], summaries := [], footers := [] }) ∧
    applyOther addArg 0 (.byName [("a", neg)]) d (.ds d)
      = .ok (some { cols := [("s", ⟨false, [-1]⟩), ("x", ⟨true, [10]⟩)], labels := [], summaries := [], footers := [] }) := by
  refine ⟨?_, ?_, ?_⟩ <;> decide +kernel

/-- a number as fill value raises (`fill_number_raises`) -/
example : applyCols addOne (.all (.one ⟨true, [0]⟩)) false
    { cols := [("s", ⟨false, [1, 2]⟩), ("x", ⟨true, [5, 6]⟩)], labels := [], summaries := [], footers := [] } = .error .value := by decide +kernel

/-- a function that works in place and returns nothing raises as soon as there is a label
(`nothing_exact`) -/
example : applyCols (fun _ => .ok none) (.all .no) false
    { cols := [("k", ⟨true, [1, 2]⟩), ("x", ⟨true, [5, 6]⟩)], labels := ["k"], summaries := [], footers := ([] : Dict String (List (Option Int))) }
    = .error .value := by decide +kernel

/-- **C85, counterexample.** An operator on a Dataset without columns gives `None`. -/
theorem empty_counterexample (f : List V → Except Err (Out V)) (fill : FillArg V) :
    applyCols f fill false { cols := [], labels := [], summaries := [], footers := [] } = .ok none := rfl

/-- **C87, counterexample.** Two columns of one array: `ds += 1` adds 1 twice; `ds + 1` adds it
once. -/
theorem shared_counterexample :
    inplace (fun xs : List Int => .ok (xs.map (· + 1))) [] [("x", true, 0), ("y", true, 0)] [[1, 2]] = ([[3, 4]], none) ∧
    applyCols addOne (.all .no) false { cols := [("x", ⟨true, [1, 2]⟩), ("y", ⟨true, [1, 2]⟩)], labels := [], summaries := [], footers := [] }
      = .ok (some { cols := [("x", ⟨true, [2, 3]⟩), ("y", ⟨true, [2, 3]⟩)], labels := [], summaries := [], footers := [] }) := by
  constructor <;> decide +kernel

/-- a failure in the second column leaves the first one changed -/
example : inplace (fun xs : List Int => if xs.contains 9 then .error .func else .ok (xs.map (· + 1))) ["k"]
    [("k", true, 0), ("x", true, 1), ("y", true, 2), ("z", true, 3)] [[1], [2], [9], [4]] = ([[1], [3], [9], [4]], some .func) := by decide

end Verif.Cols
