import Verif.Struct.ColMap

/-! # Properties of `Struct` column operations: C14, C34, C39 -/
namespace Verif.Struct
open Verif.Items Dict
variable {V : Type} {cls : Cls} {s s' : St V}

/-! ## Example states -/

/-- a class with a method `copy`, a property `shape` and the keyword `class` -/
def exCls : Cls :=
  ⟨fun n => n == "copy".toList, fun n => n == "shape".toList, fun n => n == "class".toList⟩

/-- columns a, b, c with values 1, 2, 3 -/
def exSt : St Nat :=
  run exCls init [.setAttr "a".toList 1, .setAttr "b".toList 2, .setAttr "c".toList 3]

example : names exSt = ["a".toList, "b".toList, "c".toList] ∧ exSt.ncols = 3 := by decide

/-! ## C34, C39: counters and sort list -/

/-- C34 (part), C39: after every history of legal operations the column count is the
number of columns, the names are distinct, and the recorded sort columns exist. -/
theorem ncols_correct_partial (cls : Cls) (ops : List (Op V)) (hl : LegalRun cls init ops) :
    (run cls init ops).ncols = (names (run cls init ops)).length ∧ (names (run cls init ops)).Nodup ∧
    ∀ l, (run cls init ops).sortlist = some l → ∀ n ∈ l, n ∈ names (run cls init ops) := by
  have i := inv_run (inv_init cls) ops hl
  exact ⟨i.count, i.nodup, i.sorted⟩

/-- a legal history with a chain of renames, a deletion, a sort and an operation that raises -/
example : LegalRun exCls (init : St Nat)
    [.setAttr "a".toList 1, .setAttr "b".toList 2, .setAttr "c".toList 3, .sortView ["b".toList],
     .colMap [("a".toList, "b".toList), ("b".toList, "z".toList)], .delAttr "c".toList, .delAttr "q".toList] ∧
    (run exCls (init : St Nat)
    [.setAttr "a".toList 1, .setAttr "b".toList 2, .setAttr "c".toList 3, .sortView ["b".toList],
     .colMap [("a".toList, "b".toList), ("b".toList, "z".toList)], .delAttr "c".toList, .delAttr "q".toList]).sortlist
      = some ["z".toList] := by
  refine ⟨?_, by decide⟩
  simp only [LegalRun, Legal]
  decide

/-- The full claim, without the restriction to legal operations, is false: assigning to
an attribute whose name is a property of the class adds a column that is not counted. -/
theorem ncols_property_counterexample : ∃ ops : List (Op Nat),
    (run exCls init ops).ncols ≠ (names (run exCls init ops)).length ∧ ∀ op ∈ ops, ∃ n v, op = .setAttr n v :=
  ⟨[.setAttr "shape".toList 1], by decide, by
    intro op hop; exact ⟨_, _, List.mem_singleton.mp hop⟩⟩

/-- a keyword is capitalised and counted again each time it is assigned -/
theorem ncols_keyword_counterexample : ∃ ops : List (Op Nat),
    (run exCls init ops).ncols ≠ (names (run exCls init ops)).length ∧ ∀ op ∈ ops, ∃ n v, op = .setAttr n v :=
  ⟨[.setAttr "class".toList 1, .setAttr "class".toList 2], by decide, by
    intro op hop
    simp only [List.mem_cons, List.not_mem_nil, or_false] at hop
    rcases hop with rfl | rfl <;> exact ⟨_, _, rfl⟩⟩

/-- `col_set_value` of a new column does not count it -/
theorem ncols_set_value_counterexample :
    (run exCls (init : St Nat) [.colSetValue "a".toList 1]).ncols ≠ (names (run exCls (init : St Nat) [.colSetValue "a".toList 1])).length := by
  decide

/-- `col_str_replace` that merges two names loses a column and still counts it -/
theorem ncols_str_replace_counterexample : ∃ r : Name → Name,
    (step exCls exSt (.strReplace r)).2 = none ∧
    (step exCls exSt (.strReplace r)).1.ncols ≠ (names (step exCls exSt (.strReplace r)).1).length :=
  ⟨fun n => if n = "a".toList ∨ n = "b".toList then "x".toList else n, by decide⟩

/-- C39, violated: `col_str_replace` on a sorted struct renames the column and raises before the sort list is renamed, which then names a
column that is not there -/
theorem sortlist_str_replace_counterexample : ∃ r : Name → Name, ∃ s : St Nat, s = run exCls exSt [.sortView ["b".toList]] ∧
    (step exCls s (.strReplace r)).2 ≠ none ∧
    (step exCls s (.strReplace r)).1.sortlist = some ["b".toList] ∧ "b".toList ∉ names (step exCls s (.strReplace r)).1 :=
  ⟨fun n => if n = "b".toList then "x".toList else n, _, rfl, by decide⟩

/-- C34 (part): on a locked struct an operation that checks the lock leaves everything unchanged -/
theorem locked_unchanged_partial (hl : s.locked = true) (op : Op V) (ho : unchecked op = false) : (step cls s op).1 = s := by
  cases op with
  | setAttr n v =>
    show (setAttr cls s n v).1 = s
    unfold setAttr
    split
    · rfl
    · simp [hl]
  | delAttr n => show (delAttr s n).1 = s; unfold delAttr; simp [hl]
  | colRemove l m => show (colRemove s l m).1 = s; unfold colRemove; simp [hl]
  | colRename o n =>
    show (colRename cls s o n).1 = s
    unfold colRename
    split
    · rfl
    · simp [hl]
  | moveFront l => show (colMoveToFront s l).1 = s; unfold colMoveToFront; simp [hl]
  | moveBack l => show (colMoveToBack s l).1 = s; unfold colMoveToBack; simp [hl]
  | colSwap a b => show (colSwap cls s a b).1 = s; unfold colSwap; simp [hl]
  | colMap d => show (colMap cls s d).1 = s; unfold colMap; simp [hl]
  | lock => show ({ s with locked := true } : St V) = s; cases s; simp only at hl; subst hl; rfl
  | colSetValue n v => simp [unchecked] at ho
  | addPrefix p => simp [unchecked] at ho
  | addSuffix p => simp [unchecked] at ho
  | strReplace r => simp [unchecked] at ho
  | setTagged t l => simp [unchecked] at ho
  | removeTagged t => simp [unchecked] at ho
  | setColAttr k a v => simp [unchecked] at ho
  | sortView l => simp [unchecked] at ho
  | unlock => simp [unchecked] at ho

/-- labels, attributes, sorting: never change the names, locked or not -/
theorem labels_keep_columns (op : Op V) (ho : match op with
    | .setTagged .. | .removeTagged .. | .setColAttr .. | .sortView .. | .lock | .unlock => True
    | _ => False) : names (step cls s op).1 = names s := by
  cases op with
  | setTagged t l => exact keys_taggedSetNames s.heap s.items l t
  | removeTagged t => rfl
  | setColAttr k a v =>
    show names (match itemSetAttribute (s.heap, s.items) k a v with
      | .ok r => (({ s with heap := r.1, items := r.2 } : St V), (none : Option String))
      | .error e => (s, some e)).1 = names s
    unfold itemSetAttribute
    cases hg : s.items.get k with
    | none => simp only [hg]
    | some it =>
      simp only [hg]
      have hm : k ∈ s.items.keys := List.mem_map.mpr ⟨_, mem_of_get hg, rfl⟩
      show (setAttribute (s.heap, s.items) k it a v).2.keys = s.items.keys
      unfold setAttribute
      split <;> exact keys_set_of_mem hm _
  | sortView l =>
    show names (if l.all (fun n => s.items.has n) then (({ s with sortlist := some l } : St V), (none : Option String))
      else (s, some "ValueError: sort key")).1 = names s
    split <;> rfl
  | lock => rfl
  | unlock => rfl
  | setAttr n v => exact ho.elim
  | delAttr n => exact ho.elim
  | colRemove l m => exact ho.elim
  | colRename o n => exact ho.elim
  | moveFront l => exact ho.elim
  | moveBack l => exact ho.elim
  | colSwap a b => exact ho.elim
  | colMap d => exact ho.elim
  | colSetValue n v => exact ho.elim
  | addPrefix p => exact ho.elim
  | addSuffix p => exact ho.elim
  | strReplace r => exact ho.elim

/-- The full claim is false: prefixes, suffixes, `col_str_replace` and `col_set_value`
change the columns of a locked struct. -/
theorem locked_counterexample : ∃ op1 op2 op3 op4 : Op Nat,
    (names (step exCls { exSt with locked := true } op1).1 ≠ names exSt) ∧
    (names (step exCls { exSt with locked := true } op2).1 ≠ names exSt) ∧
    (names (step exCls { exSt with locked := true } op3).1 ≠ names exSt) ∧
    (value (step exCls { exSt with locked := true } op4).1 "a".toList ≠ value exSt "a".toList) :=
  ⟨.addPrefix "p".toList, .addSuffix "p".toList,
    .strReplace (fun n => if n = "a".toList then "x".toList else n), .colSetValue "a".toList 9, by decide⟩

/-! ## C14: `col_map` -/

theorem map_newName_value {g : Name → Name} (hk : ((names s).map g).Nodup) {n : Name} (hn : n ∈ names s)
    (hs : s'.items = s.items.map (fun e => (g e.1, e.2))) : value s' (g n) = value s n := by
  obtain ⟨e, he, rfl⟩ := List.mem_map.mp hn
  have hnd : (names s).Nodup := hk.of_map
  have h1 : s.items.get e.1 = some e.2 := get_of_mem hnd he
  have h2 : (keys (s.items.map (fun e => (g e.1, e.2)))).Nodup := by
    have : keys (s.items.map (fun e => (g e.1, e.2))) = (names s).map g := by simp [keys, names, Function.comp_def]
    rw [this]; exact hk
  have h3 : Dict.get (s.items.map (fun e => (g e.1, e.2))) (g e.1) = some e.2 :=
    get_of_mem h2 (List.mem_map_of_mem (f := fun e : Name × Item V => (g e.1, e.2)) he)
  unfold value
  rw [hs, h1, h3]

theorem vals_nodup_of_check {d : Dict Name Name} (hd : (keys d).Nodup)
    (h : ¬ (d.map Prod.snd).dedup.length < d.keys.dedup.length) : (vals d).Nodup := by
  rw [hd.dedup] at h
  have h1 : (vals d).dedup.length = (vals d).length := by
    have := (List.dedup_sublist (vals d)).length_le
    have h2 : (vals d).length = (keys d).length := by simp [vals, keys]
    unfold vals at *
    omega
  have := (List.dedup_sublist (vals d)).eq_of_length h1
  rw [← this]
  exact List.nodup_dedup _

/-- effect of a good plan whose renames succeed -/
theorem plan_effect (i : Inv cls s) (hl : s.locked = false) {d : Dict Name Name} (hd : (keys d).Nodup) (hv : (vals d).Nodup)
    {ren : Dict Name Name} {swaps : List (List Name × List Name)} (g : Good d (names s) ren swaps)
    (hr : (renameAll cls s ren).2 = none) :
    (swapAll cls (renameAll cls s ren).1 swaps).2 = none ∧
    (names (swapAll cls (renameAll cls s ren).1 swaps).1).Perm ((names s).map (newName d)) ∧
    (∀ n ∈ names s, value (swapAll cls (renameAll cls s ren).1 swaps).1 (newName d n) = value s n) ∧
    (swapAll cls (renameAll cls s ren).1 swaps).1.ncols = s.ncols := by
  obtain ⟨r1, r2, r3, r4⟩ := renameAll_items ren s i hr
  have i1 := inv_renameAll ren s i
  generalize hs1 : (renameAll cls s ren).1 = s1 at *
  have hn1 : names s1 = (names s).map (through ren) := by
    unfold names keys
    rw [r1]
    simp [Function.comp_def]
  have hcyc : ∀ e ∈ swaps, ∀ k ∈ e.1, through ren k = k ∧ k ∈ names s := by
    intro e he k hk
    refine ⟨through_notMem ren k (g.apart e he k hk), ?_⟩
    obtain ⟨c, hc, rfl⟩ := g.cycles e he
    exact hc.cols k hk
  obtain ⟨g1, g2, g3, g4⟩ := swapAll_ok (cls := cls) swaps s1 (r3.trans hl) i1.valid
    (by
      intro e he
      obtain ⟨c, hc, rfl⟩ := g.cycles e he
      refine ⟨hc.nodup, hc.closed, fun k hk => ?_⟩
      obtain ⟨h1, h2⟩ := hcyc _ he k hk
      rw [hn1]
      exact List.mem_map.mpr ⟨k, h2, h1⟩) g.disj
  have hval1 : ∀ n ∈ names s, value s1 (through ren n) = value s n := by
    intro n hn
    exact map_newName_value (hn1 ▸ i1.nodup) hn r1
  -- three kinds of columns
  have hkind : ∀ n ∈ names s,
      (∃ e ∈ swaps, (n, newName d n) ∈ e.1.zip e.2 ∧ newName d n ∈ e.1 ∧ n ∈ e.1) ∨
      (newName d n = through ren n ∧ ∀ e ∈ swaps, newName d n ∉ e.1) := by
    intro n hn
    by_cases hc : ∃ e ∈ swaps, n ∈ e.1
    · left
      obtain ⟨e, he, hne⟩ := hc
      obtain ⟨c, hcy, rfl⟩ := g.cycles e he
      obtain ⟨a, ha, rfl⟩ := List.mem_map.mp hne
      have hnn : newName d a.1 = a.2 := by
        unfold newName
        rw [get_of_mem hd (hcy.sub a ha)]; rfl
      refine ⟨_, he, ?_, ?_, hne⟩
      · rw [hnn]
        have : (keys c).zip (vals c) = c := by
          unfold keys vals
          rw [List.zip_map']
          simp
        rw [this]; exact ha
      · rw [hnn]
        exact hcy.closed.mem_iff.mp (List.mem_map_of_mem ha)
    · right
      by_cases hkr : n ∈ keys ren
      · obtain ⟨a, ha, rfl⟩ := List.mem_map.mp hkr
        have hnn : newName d a.1 = a.2 := by
          unfold newName
          rw [get_of_mem hd (g.sub a ha)]; rfl
        refine ⟨hnn.trans (through_mem ren g.ordered g.nodup ha).symm, fun e he hm => hc ⟨e, he, ?_⟩⟩
        obtain ⟨c, hcy, rfl⟩ := g.cycles e he
        rw [hnn] at hm
        exact hcy.bwd hv hm (g.sub a ha)
      · have hnd : n ∉ keys d := by
          intro hm
          rcases g.cover n hm hn with h | h
          · exact hkr h
          · exact hc h
        have hnn : newName d n = n := by
          unfold newName
          rw [(get_eq_none_iff d n).mpr hnd]; rfl
        rw [hnn, through_notMem ren n hkr]
        exact ⟨rfl, fun e he hm => hc ⟨e, he, hm⟩⟩
  refine ⟨g1, ?_, ?_, g2.count.trans r2⟩
  · rw [g2.names]
    have hsub : (names s).map (newName d) ⊆ names s1 := by
      intro k hk
      obtain ⟨n, hn, rfl⟩ := List.mem_map.mp hk
      rw [hn1]
      rcases hkind n hn with ⟨e, he, _, hm, _⟩ | ⟨he, _⟩
      · obtain ⟨h1, h2⟩ := hcyc e he _ hm
        exact List.mem_map.mpr ⟨_, h2, h1⟩
      · rw [he]; exact List.mem_map_of_mem hn
    have hnd : ((names s).map (newName d)).Nodup := by
      refine List.Nodup.map_on (fun a ha b hb hab => ?_) i.nodup
      rcases hkind a ha with ⟨e, he, hz, hm, hae⟩ | ⟨he, hnot⟩
      · rcases hkind b hb with ⟨e', he', hz', hm', hbe⟩ | ⟨he', hnot'⟩
        · have inD : ∀ (e : List Name × List Name), e ∈ swaps → ∀ p ∈ e.1.zip e.2, p ∈ d := by
            intro e he p hp
            obtain ⟨c, hcy, rfl⟩ := g.cycles e he
            have : (keys c).zip (vals c) = c := by
              unfold keys vals
              rw [List.zip_map']
              simp
            rw [this] at hp
            exact hcy.sub p hp
          have h1 := inD e he _ hz
          have h2 := inD e' he' _ hz'
          rw [hab] at h1
          exact vals_inj hv h1 h2
        · exact absurd (hab ▸ hm) (hnot' e he)
      · rcases hkind b hb with ⟨e', he', hz', hm', hbe⟩ | ⟨he', hnot'⟩
        · exact absurd (hab ▸ hm') (hnot e' he')
        · rw [he, he'] at hab
          exact List.inj_on_of_nodup_map (hn1 ▸ i1.nodup) ha hb hab
    refine ((List.subperm_of_subset hnd hsub).perm_of_length_le ?_).symm
    rw [hn1]; simp
  · intro n hn
    rcases hkind n hn with ⟨e, he, hz, hm, hne⟩ | ⟨he, hnot⟩
    · rw [g3 e he _ hz]
      have := hval1 n hn
      rw [(hcyc e he n hne).1] at this
      exact this
    · rw [g4 _ hnot, he]
      exact hval1 n hn

/-- the direct branch, when no new name is also an old name -/
theorem good_direct {d : Dict Name Name} {P : List Name} (hd : (keys d).Nodup) (hcols : ∀ k ∈ keys d, k ∈ P)
    (hno : ∀ e ∈ d, e.2 ∉ keys d) (hP : ∀ e ∈ d, e.2 ∉ P) : Good d P d [] := by
  have hfree : ∀ l1 o n l2, d = l1 ++ (o, n) :: l2 → (n ∉ P ∨ n ∈ keys l1) := by
    intro l1 o n l2 hl
    exact .inl (hP (o, n) (by rw [hl]; simp))
  refine ⟨fun _ h => h, hd, hcols, ordered_of hd hcols hfree, by simp, by simp, by simp, fun k hk _ => .inl hk, hfree⟩

/-- in the direct branch success means that all old names exist -/
theorem renameAll_keys (l : Dict Name Name) : ∀ s : St V, Inv cls s → (renameAll cls s l).2 = none → (keys l).Nodup →
    (∀ e ∈ l, e.2 ∉ keys l) → ∀ k ∈ keys l, k ∈ names s := by
  induction l with
  | nil => intro s _ _ _ _ k hk; simp [keys] at hk
  | cons e l ih =>
    intro s i h hn hno k hk
    obtain ⟨o, t⟩ := e
    have hn' : o ∉ keys l ∧ (keys l).Nodup := by
      have : (o :: keys l).Nodup := hn
      exact List.nodup_cons.mp this
    have hot : o ≠ t := fun e => hno (o, t) (by simp) (by simp [keys, e])
    have hi := inv_colRename i o t
    have hit := colRename_items i (o := o) (n := t)
    unfold renameAll at h
    rcases colRename_cases (cls := cls) i.nodup o t with ⟨h1, h2, h3, h4, h5⟩ | hc
    · have hk' : k = o ∨ k ∈ keys l := by simpa [keys] using hk
      rcases hk' with rfl | hk'
      · exact h4
      cases hdd : colRename cls s o t with
      | mk s1 m =>
        rw [hdd] at h hi hit
        cases m with
        | some m => simp at h
        | none =>
          have hm := ih s1 hi h hn'.2 (fun e he hm => hno e (by simp [he]) (by simp [keys] at hm ⊢; exact .inr hm)) k hk'
          unfold names keys at hm
          rw [(hit rfl).1] at hm
          simp only [List.map_map, List.mem_map, Function.comp] at hm
          obtain ⟨a, ha, hak⟩ := hm
          by_cases hao : a.1 = o
          · rw [if_pos hao] at hak
            exact absurd (show t ∈ keys ((o, t) :: l) by simp [keys] at hk' ⊢; rw [hak]; exact .inr hk') (hno (o, t) (by simp))
          · rw [if_neg hao] at hak
            exact List.mem_map.mpr ⟨a, ha, hak⟩
    · have : (colRename cls s o t).2 ≠ none := fun e => hot (hc.2.mp e)
      cases hdd : colRename cls s o t with
      | mk s1 m =>
        rw [hdd] at h this
        cases m with
        | none => exact absurd rfl this
        | some m => simp at h

/-- **C14** (part: `hchain` is missing in the code, see the counterexample).  When
`col_map` succeeds, the value that was under `n` is now under its new name, for every
column, whatever chains and cycles the dictionary contains; no name is lost or added. -/
theorem col_map_correct_partial (i : Inv cls s) {d : Dict Name Name} (hd : (keys d).Nodup)
    (hchain : (∀ e ∈ d, e.2 ∉ names s) → ∀ e ∈ d, e.2 ∉ keys d) (h : colMap cls s d = (s', none)) :
    (∀ n ∈ names s, value s' (newName d n) = value s n) ∧ (names s').Perm ((names s).map (newName d)) ∧ s'.ncols = s.ncols := by
  unfold colMap at h
  by_cases hl : s.locked = true
  · rw [if_pos hl] at h; simp at h
  rw [if_neg hl] at h
  rw [Bool.not_eq_true] at hl
  by_cases hm : (d.map Prod.snd).dedup.length < d.keys.dedup.length
  · rw [if_pos hm] at h; simp at h
  rw [if_neg hm] at h
  have hv := vals_nodup_of_check hd hm
  have fin : ∀ ren swaps, Good d (names s) ren swaps →
      (match renameAll cls s ren with | (s1, none) => swapAll cls s1 swaps | r => r) = (s', none) →
      (∀ n ∈ names s, value s' (newName d n) = value s n) ∧ (names s').Perm ((names s).map (newName d)) ∧ s'.ncols = s.ncols := by
    intro ren swaps g hh
    have heff := plan_effect (cls := cls) i hl hd hv g
    cases hr : renameAll cls s ren with
    | mk s1 m =>
      rw [hr] at hh heff
      cases m with
      | some m => simp at hh
      | none =>
        obtain ⟨e1, e2, e3, e4⟩ := heff rfl
        dsimp only at hh e1 e2 e3 e4
        rw [hh] at e2 e3 e4
        exact ⟨e3, e2, e4⟩
  by_cases hb : (d.map Prod.snd).any (fun n => s.items.has n) = true
  · rw [if_pos hb] at h
    cases hsr : safeReordering d s.items.keys with
    | error e => rw [hsr] at h; simp at h
    | ok r =>
      obtain ⟨ren, swaps⟩ := r
      rw [hsr] at h
      exact fin ren swaps (safeReordering_good hd hv hsr) h
  · rw [if_neg hb] at h
    dsimp only at h
    have hP : ∀ e ∈ d, e.2 ∉ names s := by
      intro e he hmem
      exact hb (List.any_eq_true.mpr ⟨e.2, List.mem_map_of_mem he, (has_iff _ _).mpr hmem⟩)
    have hno := hchain hP
    refine fin d [] ?_ h
    refine good_direct hd ?_ hno hP
    refine renameAll_keys d s i ?_ hd hno
    cases hr : renameAll cls s d with
    | mk s1 m =>
      rw [hr] at h
      cases m with
      | none => rfl
      | some m => simp at h

/-- `col_map` succeeds whenever the request makes sense: old names are columns, new
names are distinct and admissible, and a new name that exists is itself renamed. -/
theorem col_map_succeeds (i : Inv cls s) (hl : s.locked = false) {d : Dict Name Name} (hd : (keys d).Nodup)
    (hv : (d.map Prod.snd).Nodup) (hcols : ∀ k ∈ keys d, k ∈ names s) (hval : ∀ e ∈ d, validName cls e.2 = true)
    (hex : ∀ e ∈ d, e.2 ∈ names s → e.2 ∈ keys d) : ∃ s', colMap cls s d = (s', none) := by
  have fin : ∀ ren swaps, Good d (names s) ren swaps →
      ∃ s', (match renameAll cls s ren with | (s1, none) => swapAll cls s1 swaps | r => r) = (s', none) := by
    intro ren swaps g
    have hok : (renameAll cls s ren).2 = none := by
      refine renameAll_ok ren s i hl (free_of ren (names s) g.nodup ?_ g.cols (fun e he => hval e (g.sub e he)) g.free)
      refine List.Nodup.map_on (fun a ha b hb hab => ?_) g.nodup.of_map
      exact List.inj_on_of_nodup_map hv (g.sub a ha) (g.sub b hb) hab
    have heff := plan_effect (cls := cls) i hl hd hv g hok
    cases hr : renameAll cls s ren with
    | mk s1 m =>
      rw [hr] at hok heff
      dsimp only at hok
      subst hok
      exact ⟨(swapAll cls s1 swaps).1, Prod.ext rfl heff.1⟩
  unfold colMap
  rw [if_neg (by simp [hl])]
  have hm : ¬ (d.map Prod.snd).dedup.length < d.keys.dedup.length := by
    rw [hv.dedup, hd.dedup]; simp [keys]
  rw [if_neg hm]
  by_cases hb : (d.map Prod.snd).any (fun n => s.items.has n) = true
  · rw [if_pos hb]
    obtain ⟨r, hsr⟩ := safeReordering_total (P := s.items.keys) hd hv hex
    rw [hsr]
    exact fin r.1 r.2 (safeReordering_good hd hv hsr)
  · rw [if_neg hb]
    have hP : ∀ e ∈ d, e.2 ∉ names s := by
      intro e he hmem
      exact hb (List.any_eq_true.mpr ⟨e.2, List.mem_map_of_mem he, (has_iff _ _).mpr hmem⟩)
    exact fin d [] (good_direct hd hcols (fun e he hm => hP e he (hcols _ hm)) hP)

theorem exSt_inv : Inv exCls exSt :=
  ⟨by decide, by decide, by decide, by
    have : exSt.sortlist = none := by decide
    intro l hl; rw [this] at hl; simp at hl⟩

/-- a chain and a cycle in one dictionary satisfy the hypotheses -/
example : ∃ s', colMap exCls exSt [("a".toList, "b".toList), ("b".toList, "a".toList), ("c".toList, "z".toList)] = (s', none) :=
  col_map_succeeds exSt_inv (by decide) (by decide) (by decide) (by decide) (by decide) (by decide)

/-- the full statement of C14, without `hchain`, fails: with the single column `a`,
renaming `a→b, b→c` moves the value of `a` to `c` -/
theorem col_map_direct_chain_counterexample : ∃ (s' : St Nat) (d : Dict Name Name),
    (keys d).Nodup ∧ (vals d).Nodup ∧ colMap exCls (run exCls init [.setAttr "a".toList 1]) d = (s', none) ∧
    value s' (newName d "a".toList) ≠ value (run exCls init [.setAttr "a".toList 1]) "a".toList := by
  refine ⟨(colMap exCls (run exCls init [.setAttr "a".toList 1]) [("a".toList, "b".toList), ("b".toList, "c".toList)]).1,
    [("a".toList, "b".toList), ("b".toList, "c".toList)], by decide, by decide, ?_, by decide⟩
  refine Prod.ext rfl ?_
  decide

/-- With a missing old name `col_map` raises after it has already renamed a column. -/
theorem col_map_not_atomic_counterexample : ∃ d : Dict Name Name,
    (colMap exCls exSt d).2 ≠ none ∧ names (colMap exCls exSt d).1 ≠ names exSt :=
  ⟨[("a".toList, "x".toList), ("q".toList, "y".toList)], by decide⟩

end Verif.Struct
