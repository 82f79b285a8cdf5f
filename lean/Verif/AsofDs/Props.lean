import Verif.AsofDs.Spec
import Verif.Merge2.Lookup

/-!
# C60: contents of an as-of merged Dataset
-/
namespace Verif.AsofDs
open Verif.Merge Verif.Merge2 Verif.Asof Verif.Items

section
variable {V α : Type} [DecidableEq V]

theorem mbget_range (inv : V) (col : List V) (fi : List (Option Nat)) (n : Nat) (h : fi.length = n) :
    mbget inv col fi = (List.range n).map fun i => cell inv col (fi.getD i none) := by
  subst h
  apply List.ext_getElem
  · simp [mbget]
  · intro i h1 h2
    simp only [mbget, List.getElem_map, List.getElem_range]
    have hi : i < fi.length := by simpa [mbget] using h1
    rw [List.getD_eq_getElem?_getD, List.getElem?_eq_getElem hi]
    cases fi[i] <;> rfl

theorem mkDataset_ok (n : Nat) (out : Dict Name (List V)) (ho : ∀ p ∈ out, p.2.length = n) :
    ∃ k, mkDataset out = .ok ⟨k, out⟩ ∧ (out ≠ [] → k = n) := by
  cases out with
  | nil => exact ⟨0, rfl, fun h => absurd rfl h⟩
  | cons e rest =>
    refine ⟨e.2.length, ?_, fun _ => ho e List.mem_cons_self⟩
    unfold mkDataset
    dsimp only
    rw [if_pos]
    rw [List.all_eq_true]
    intro p hp
    rw [decide_eq_true_eq, ho p (List.mem_cons_of_mem _ hp), ho e List.mem_cons_self]

theorem present_iff (ds : DS V) (l : List Name) : Merge2.present ds l = true ↔ ∀ c ∈ l, c ∈ ds.cols.keys := by
  unfold Merge2.present
  rw [List.all_eq_true]
  exact forall₂_congr fun c _ => Dict.has_iff _ _

theorem named_iff (a : AArgs V α) : a.present = true ↔ Named a := by
  unfold AArgs.present
  simp only [Bool.and_eq_true, present_iff]
  constructor
  · rintro ⟨⟨⟨⟨⟨h1, h2⟩, h3⟩, h4⟩, h5⟩, h6⟩
    exact ⟨h1 _ (by simp), h4 _ (by simp), h2, h5, h3, h6⟩
  · rintro ⟨h1, h2, h3, h4, h5, h6⟩
    exact ⟨⟨⟨⟨⟨by simpa using h1, h3⟩, h5⟩, by simpa using h2⟩, h4⟩, h6⟩

/-- The output dictionary, given an index with one entry per left row. -/
theorem assembleAsof_ok (inv : V) (a : AArgs V α) (m : Mapping)
    (hm : NamesOK a.keysL a.keysR a.selL a.selR a.suffixes m)
    (hL : a.left.WF) (hN : Named a) (fi : List (Option Nat)) (hfi : fi.length = a.left.nrows) :
    (MatchedFree a → ∃ out ds, assembleAsof inv a m fi = .ok out ∧ mkDataset out = .ok ds ∧
      IsAsof inv a (fun i => fi.getD i none) ds) ∧
    (¬ MatchedFree a → ∃ e, assembleAsof inv a m fi = .error e) := by
  set fL := outName a.keysL a.keysR a.selL a.selR (sufL a.suffixes) with hfL
  set fR := outName a.keysL a.keysR a.selL a.selR (sufR a.suffixes) with hfR
  set lK := m.inter.map fun c => (c, a.left.col c) with hlK
  set lL := m.oldL.map fun c => (fL c, fetch inv (a.left.col c) none) with hlL
  set lR := m.oldR.map fun c => (fR c, fetch inv (a.right.col c) (some fi)) with hlR
  have kK : ∀ n, n ∈ lK.map Prod.fst ↔ common a.keysL a.keysR n := by
    intro n; rw [hlK, List.map_map]; simp [hm.inter]
  have kL : ∀ n, n ∈ lL.map Prod.fst ↔ ∃ c ∈ m.oldL, fL c = n := by
    intro n; rw [hlL, List.map_map]; simp
  have kR : ∀ n, n ∈ lR.map Prod.fst ↔ ∃ c ∈ m.oldR, fR c = n := by
    intro n; rw [hlR, List.map_map]; simp
  set out2 := setAll lR (setAll lL (setAll lK [])) with hout2
  have mem2 : ∀ n, n ∈ Dict.keys out2 ↔ common a.keysL a.keysR n ∨ (∃ c ∈ m.oldL, fL c = n) ∨
      (∃ c ∈ m.oldR, fR c = n) := by
    intro n
    rw [hout2, keys_setAll, keys_setAll, keys_setAll, kK, kL, kR]
    constructor
    · rintro (h | h | h | h)
      · exact Or.inr (Or.inr h)
      · exact Or.inr (Or.inl h)
      · exact Or.inl h
      · simp [Dict.keys] at h
    · rintro (h | h | h)
      · exact Or.inr (Or.inr (Or.inl h))
      · exact Or.inr (Or.inl h)
      · exact Or.inl h
  have nd2 : (Dict.keys out2).Nodup := nodup_setAll _ _ (nodup_setAll _ _ (nodup_setAll _ _ (by simp [Dict.keys])))
  have lenL : ∀ c ∈ a.left.cols.keys, (a.left.col c).length = a.left.nrows := fun c hc => col_length hL hc
  have len2 : ∀ p ∈ out2, p.2.length = a.left.nrows := by
    refine forall_setAll (fun v : List V => v.length = a.left.nrows) _ _
      (forall_setAll (fun v : List V => v.length = a.left.nrows) _ _
      (forall_setAll (fun v : List V => v.length = a.left.nrows) _ _ (by simp) ?_) ?_) ?_
    · intro p hp
      obtain ⟨c, hc, rfl⟩ := List.mem_map.mp hp
      have := ((hm.inter c).mp hc).1
      rw [AArgs.keysL, List.mem_cons] at this
      rcases this with rfl | h
      · exact lenL _ hN.leftOn
      · exact lenL _ (hN.leftBy c h)
    · intro p hp
      obtain ⟨c, hc, rfl⟩ := List.mem_map.mp hp
      exact lenL _ (hN.selL c ((hm.oldL c).mp hc).1)
    · intro p hp
      obtain ⟨c, hc, rfl⟩ := List.mem_map.mp hp
      simp [fetch, mbget, hfi]
  have gK : ∀ c, common a.keysL a.keysR c → Dict.get out2 c = some (a.left.col c) := by
    intro c hc
    rw [hout2, get_setAll_of_notMem _ _ _ (by
        rw [kR]; rintro ⟨c', hc', e⟩; exact hm.keyR c' hc' (show common _ _ (fR c') from e ▸ hc)),
      get_setAll_of_notMem _ _ _ (by
        rw [kL]; rintro ⟨c', hc', e⟩; exact hm.keyL c' hc' (show common _ _ (fL c') from e ▸ hc))]
    refine get_setAll_of_mem _ _ _ _ ((kK c).mpr hc) ?_
    intro p hp e
    obtain ⟨c', _, rfl⟩ := List.mem_map.mp hp
    dsimp only at e; subst e; rfl
  have gL : ∀ c ∈ m.oldL, Dict.get out2 (fL c) = some (a.left.col c) := by
    intro c hc
    rw [hout2, get_setAll_of_notMem _ _ _ (by
        rw [kR]; rintro ⟨c', hc', e⟩; exact hm.disj c hc c' hc' e.symm)]
    refine get_setAll_of_mem _ _ _ _ ((kL _).mpr ⟨c, hc, rfl⟩) ?_
    intro p hp e
    obtain ⟨c', hc', rfl⟩ := List.mem_map.mp hp
    have := hm.injL c' hc' c hc e
    subst this
    rfl
  have gR : ∀ c ∈ m.oldR, Dict.get out2 (fR c) =
      some ((List.range a.left.nrows).map fun i => cell inv (a.right.col c) (fi.getD i none)) := by
    intro c hc
    rw [hout2]
    refine get_setAll_of_mem _ _ _ _ ((kR _).mpr ⟨c, hc, rfl⟩) ?_
    intro p hp e
    obtain ⟨c', hc', rfl⟩ := List.mem_map.mp hp
    have := hm.injR c' hc' c hc e
    subst this
    exact mbget_range inv _ fi _ hfi
  have hasm : assembleAsof inv a m fi =
      match matchedName a.matched with
      | none => .ok out2
      | some n =>
        if Dict.has out2 n then .error "ValueError: matched_on column name collision"
        else .ok (Dict.set out2 n (mbget inv (a.right.col a.rightOn) fi)) := by
    unfold assembleAsof
    have h0 : m.inter.foldl (fun (o : Dict Name (List V)) c => Dict.set o c (a.left.col c)) [] = setAll lK [] := by
      rw [hlK, setAll, List.foldl_map]
    dsimp only
    rw [h0, hm.newL, hm.newR, addCols_eq, addCols_eq]
    cases matchedName a.matched <;> rfl
  have memL : ∀ c, c ∈ a.selL → ¬ common a.keysL a.keysR c → c ∈ m.oldL := fun c h1 h2 => (hm.oldL c).mpr ⟨h1, h2⟩
  have memR : ∀ c, c ∈ a.selR → ¬ common a.keysL a.keysR c → c ∈ m.oldR := fun c h1 h2 => (hm.oldR c).mpr ⟨h1, h2⟩
  have exL : ∀ n, (∃ c ∈ m.oldL, fL c = n) ↔ ∃ c ∈ a.selL, ¬ common a.keysL a.keysR c ∧ n = fL c := by
    intro n
    constructor
    · rintro ⟨c, hc, e⟩; exact ⟨c, ((hm.oldL c).mp hc).1, ((hm.oldL c).mp hc).2, e.symm⟩
    · rintro ⟨c, h1, h2, e⟩; exact ⟨c, memL c h1 h2, e.symm⟩
  have exR : ∀ n, (∃ c ∈ m.oldR, fR c = n) ↔ ∃ c ∈ a.selR, ¬ common a.keysL a.keysR c ∧ n = fR c := by
    intro n
    constructor
    · rintro ⟨c, hc, e⟩; exact ⟨c, ((hm.oldR c).mp hc).1, ((hm.oldR c).mp hc).2, e.symm⟩
    · rintro ⟨c, h1, h2, e⟩; exact ⟨c, memR c h1 h2, e.symm⟩
  have hfree : MatchedFree a ↔ ∀ n, matchedName a.matched = some n → n ∉ Dict.keys out2 := by
    unfold MatchedFree
    refine forall₂_congr fun n _ => ?_
    rw [mem2, exL, exR]
    constructor
    · rintro ⟨h1, h2, h3⟩ (h | ⟨c, hc, hn, e⟩ | ⟨c, hc, hn, e⟩)
      · exact h1 h
      · exact h2 c hc hn e
      · exact h3 c hc hn e
    · intro h
      exact ⟨fun h' => h (Or.inl h'), fun c hc hn e => h (Or.inr (Or.inl ⟨c, hc, hn, e⟩)),
        fun c hc hn e => h (Or.inr (Or.inr ⟨c, hc, hn, e⟩))⟩
  rw [hfree]
  cases hn : matchedName a.matched with
  | none =>
    rw [hn] at hasm
    constructor
    · intro _
      obtain ⟨k, hd, hlen⟩ := mkDataset_ok _ out2 len2
      refine ⟨out2, ⟨k, out2⟩, hasm, hd, ?_⟩
      exact { key := gK
              left := fun c h1 h2 => gL c (memL c h1 h2)
              right := fun c h1 h2 => gR c (memR c h1 h2)
              matched := by intro n h; rw [hn] at h; cases h
              only := by
                intro n
                show n ∈ Dict.keys out2 ↔ _
                rw [mem2, exL, exR, hn]
                simp [hfL, hfR]
              nodup := nd2
              nrows := hlen }
    · intro h
      exact absurd (fun n e => by cases e) h
  | some n =>
    rw [hn] at hasm
    dsimp only at hasm
    constructor
    · intro hf
      have hnm := hf n rfl
      rw [(Dict.has_false_iff _ _).mpr hnm] at hasm
      simp only [Bool.false_eq_true, if_false] at hasm
      have len3 : ∀ p ∈ Dict.set out2 n (mbget inv (a.right.col a.rightOn) fi), p.2.length = a.left.nrows := by
        rw [Dict.set_of_notMem hnm]
        intro p hp
        rw [List.mem_append, List.mem_singleton] at hp
        rcases hp with hp | rfl
        · exact len2 p hp
        · simp [mbget, hfi]
      obtain ⟨k, hd, hlen⟩ := mkDataset_ok _ _ len3
      have old : ∀ c v, Dict.get out2 c = some v →
          Dict.get (Dict.set out2 n (mbget inv (a.right.col a.rightOn) fi)) c = some v := by
        intro c v hv
        rw [Dict.get_set, if_neg, hv]
        rintro rfl
        rw [(Dict.get_eq_none_iff _ _).mpr hnm] at hv
        cases hv
      refine ⟨_, ⟨k, _⟩, hasm, hd, ?_⟩
      exact { key := fun c hc => old _ _ (gK c hc)
              left := fun c h1 h2 => old _ _ (gL c (memL c h1 h2))
              right := fun c h1 h2 => old _ _ (gR c (memR c h1 h2))
              matched := by
                intro n' h
                rw [hn] at h
                cases h
                show Dict.get (Dict.set out2 n _) n = _
                rw [Dict.get_set, if_pos rfl, mbget_range inv _ fi _ hfi]
              only := by
                intro n'
                show n' ∈ Dict.keys (Dict.set out2 n _) ↔ _
                rw [Dict.mem_keys_set, mem2, exL, exR, hn]
                constructor
                · rintro (rfl | h | h | h)
                  · exact Or.inr (Or.inr (Or.inr rfl))
                  · exact Or.inl h
                  · exact Or.inr (Or.inl h)
                  · exact Or.inr (Or.inr (Or.inl h))
                · rintro (h | h | h | h)
                  · exact Or.inr (Or.inl h)
                  · exact Or.inr (Or.inr (Or.inl h))
                  · exact Or.inr (Or.inr (Or.inr h))
                  · exact Or.inl (Option.some.inj h).symm
              nodup := Dict.nodup_set nd2 _ _
              nrows := hlen }
    · intro hf
      have hnm : n ∈ Dict.keys out2 := by
        by_contra hc
        exact hf fun n' e => by cases e; exact hc
      rw [(Dict.has_iff _ _).mpr hnm] at hasm
      exact ⟨_, hasm⟩

end

section
variable {V α : Type} [DecidableEq V] [LinearOrder α]

theorem checkFlags_len {hb nb : Bool} {out o : List (Option Nat)} (h : checkFlags hb nb out = .ok o) :
    o.length = out.length := by
  unfold checkFlags at h
  split at h
  · cases h
  · split at h
    · cases h
    · cases h; rfl

theorem asofIndices_len [Sub α] {b : Bounds α} {tol : Option α} {exact : Bool} {dir : Dir}
    {left right : List (Option α)} {o : List (Option Nat)}
    (h : asofIndices b tol exact dir left right = .ok o) : o.length = left.length := by
  unfold asofIndices at h
  cases dir <;> simp only at h <;> rw [checkFlags_len h] <;> simp [combine]

theorem asofGrouped_len [Sub α] {K : Type} [DecidableEq K] {order : List Nat} {b : Bounds α} {tol : Option α}
    {exact : Bool} {dir : Dir} {L R : Grouping K} {left right : List (Option α)} {o : List (Option Nat)}
    (hl : left.length = L.ikey.length)
    (h : asofGrouped order b tol exact dir L R left right = .ok o) : o.length = left.length := by
  unfold asofGrouped at h
  cases dir <;> simp only at h <;> rw [checkFlags_len h] <;> simp [combine, hl]

theorem rightIndex_len [Sub α] {x : AWorld V α} (hx : x.OK) {a : AArgs V α} (hL : a.left.WF) (hN : Named a)
    {fi : List (Option Nat)} (h : rightIndex x a = .ok fi) : fi.length = a.left.nrows := by
  have hlen := col_length hL hN.leftOn
  unfold rightIndex at h
  dsimp only at h
  split at h
  · rw [asofIndices_len h, List.length_map, hlen]
  · rw [asofGrouped_len ?_ h, List.length_map, hlen]
    rw [List.length_map, hlen, WF.length (hx.grp _)]
    simp [maskKeys, keyTuples]

/-- **C60** When `merge_asof2` returns a Dataset, and that whatever it returns has the rows of
the left Dataset in order and all requested columns under their names: nothing is assumed about
sorting. -/
theorem mergeAsof2_contents [Sub α] (x : AWorld V α) (hx : x.OK) (a : AArgs V α) (hL : a.left.WF) (ds : DS V) :
    mergeAsof2 x a = .ok ds → ∃ fi, rightIndex x a = .ok fi ∧ IsAsof x.w.inv a (fun i => fi.getD i none) ds ∧
      Named a ∧ MatchedFree a ∧ a.leftBy.length = a.rightBy.length := by
  intro h
  unfold mergeAsof2 at h
  split at h
  · cases h
  rename_i hp
  have hN := (named_iff a).mp (by simpa using hp)
  split at h
  · cases h
  rename_i m hm
  have hm := merge_names_correct hx.ord hm
  split at h
  · cases h
  rename_i hk
  split at h
  · cases h
  rename_i fi hfi
  obtain ⟨h1, h2⟩ := assembleAsof_ok x.w.inv a m hm hL hN fi (rightIndex_len hx hL hN hfi)
  by_cases hf : MatchedFree a
  · obtain ⟨out, ds', e1, e2, e3⟩ := h1 hf
    rw [e1] at h
    dsimp only at h
    rw [e2] at h
    cases h
    exact ⟨fi, hfi, e3, hN, hf, by simpa [AArgs.keysL, AArgs.keysR] using hk⟩
  · obtain ⟨e, he⟩ := h2 hf
    rw [he] at h
    cases h

theorem mergeAsof2_of_index [Sub α] (x : AWorld V α) (hx : x.OK) (a : AArgs V α) (hL : a.left.WF) (hN : Named a)
    (hf : MatchedFree a) (hk : a.leftBy.length = a.rightBy.length) {m : Mapping}
    (hm : colnameMapping x.w.ord a.keysL a.keysR a.suffixes a.selL a.selR = .ok m)
    {fi : List (Option Nat)} (hfi : rightIndex x a = .ok fi) :
    ∃ ds, mergeAsof2 x a = .ok ds ∧ IsAsof x.w.inv a (fun i => fi.getD i none) ds := by
  obtain ⟨out, ds, e1, e2, e3⟩ := (assembleAsof_ok x.w.inv a m (merge_names_correct hx.ord hm) hL hN fi
    (rightIndex_len hx hL hN hfi)).1 hf
  refine ⟨ds, ?_, e3⟩
  unfold mergeAsof2
  rw [(named_iff a).mpr hN, hm]
  simp only [Bool.not_true, Bool.false_eq_true, if_false]
  rw [if_neg (by simp [AArgs.keysL, AArgs.keysR, hk]), hfi]
  simp only
  rw [e1]
  exact e2

/-- **C60** Different numbers of `by` columns, a taken `matched_on` name, an unknown column or
names that cannot be resolved are refused. -/
theorem mergeAsof2_refuses [Sub α] (x : AWorld V α) (hx : x.OK) (a : AArgs V α) (hL : a.left.WF)
    (h : a.leftBy.length ≠ a.rightBy.length ∨ ¬ MatchedFree a ∨ ¬ Named a ∨
      (∃ c, clashes a.keysL a.keysR a.selL a.selR c) ∧ sufL a.suffixes = sufR a.suffixes) :
    ∃ e, mergeAsof2 x a = .error e := by
  cases hr : mergeAsof2 x a with
  | error e => exact ⟨e, rfl⟩
  | ok ds =>
    obtain ⟨_, _, _, h1, h2, h3⟩ := mergeAsof2_contents x hx a hL ds hr
    rcases h with h | h | h | ⟨⟨c, hc⟩, h⟩
    · exact absurd h3 h
    · exact absurd h2 h
    · exact absurd h1 h
    · obtain ⟨e, he⟩ := merge_names_refused hx.ord _ _ _ _ _ c hc h
      unfold mergeAsof2 at hr
      rw [he] at hr
      dsimp only at hr
      split at hr <;> cases hr

/-! ## The rows -/

theorem keyTuples_get (inv : V) (ds : DS V) (on : List Name) (i : Nat) (hi : i < ds.nrows) :
    (keyTuples inv ds on)[i]? = some (on.map fun c => (ds.col c).getD i inv) := by
  unfold keyTuples
  rw [List.getElem?_map, List.getElem?_range hi]
  rfl

theorem cand_eq (x : AWorld V α) (a : AArgs V α) (rv : List α) (i : Nat) :
    sameKey (maskKeys (tupleNull x.w.isnull) false (keyTuples x.w.inv a.left a.leftBy))
      (maskKeys (tupleNull x.w.isnull) true (keyTuples x.w.inv a.right a.rightBy)) rv i =
    Candidate x.w.inv x.w.isnull a rv i := by
  funext j y
  unfold Candidate
  rw [maskKeys_true, ← columnKeys_keyTuples, ← columnKeys_keyTuples]
  apply propext
  unfold sameKey
  refine exists_congr fun k => ?_
  have h1 : (maskKeys (tupleNull x.w.isnull) false (keyTuples x.w.inv a.left a.leftBy))[i]? = some (some k) ↔
      (keyTuples x.w.inv a.left a.leftBy)[i]? = some k := by
    simp [maskKeys, List.getElem?_map]
  have h2 : ∀ (l : List (List V)) (n : Nat), (columnKeys (tupleNull x.w.isnull) l)[n]? = some (some k) ↔
      l[n]? = some k ∧ tupleNull x.w.isnull k = false := by
    intro l n
    simp only [columnKeys, List.getElem?_map, Option.map_eq_some_iff]
    constructor
    · rintro ⟨t, ht, e⟩
      split at e
      · cases e
      · rename_i hn
        cases e
        exact ⟨ht, by simpa using hn⟩
    · rintro ⟨ht, hn⟩
      exact ⟨k, ht, by simp [hn]⟩
  rw [h1, h2, h2]
  constructor
  · rintro ⟨e1, ⟨e2, e3⟩, e4⟩; exact ⟨⟨e1, e3⟩, ⟨e2, e3⟩, e4⟩
  · rintro ⟨⟨e1, _⟩, h⟩; exact ⟨e1, h⟩

theorem cand_noby (x : AWorld V α) (a : AArgs V α) (rv : List α) (i : Nat) (hl : a.leftBy = [])
    (hr : a.rightBy = []) (hi : i < a.left.nrows) (hlen : rv.length = a.right.nrows) :
    (fun (j : Nat) (y : α) => rv[j]? = some y) = Candidate x.w.inv x.w.isnull a rv i := by
  funext j y
  apply propext
  unfold Candidate sameKey rowKeys
  rw [hl, hr]
  constructor
  · intro h
    have hj := (List.getElem?_eq_some_iff.mp h).1
    refine ⟨[], ?_, ?_, h⟩
    · rw [List.getElem?_map, List.getElem?_range hi]; rfl
    · rw [List.getElem?_map, List.getElem?_range (by omega)]; rfl
  · rintro ⟨_, _, _, h⟩; exact h

theorem sorted_groups (inv : V) (ds : DS V) (hds : ds.WF) (on : List Name) (hon : ∀ c ∈ on, c ∈ ds.cols.keys)
    (v : List α) (force : Bool) (isnull : V → Bool)
    (h : ∀ (i j : Nat) (p q : α), i ≤ j → (∀ c ∈ on, (ds.col c)[i]? = (ds.col c)[j]?) →
      v[i]? = some p → v[j]? = some q → p ≤ q) :
    SortedInGroups (maskKeys (tupleNull isnull) force (keyTuples inv ds on)) v := by
  intro i j k p q hij hi hj hp hq
  refine h i j p q hij (fun c hc => ?_) hp hq
  have hget : ∀ n : Nat, (maskKeys (tupleNull isnull) force (keyTuples inv ds on))[n]? = some (some k) →
      n < ds.nrows ∧ k = on.map fun c => (ds.col c).getD n inv := by
    intro n hn
    have hlt : n < ds.nrows := by
      have := (List.getElem?_eq_some_iff.mp hn).1
      simpa [maskKeys, keyTuples] using this
    refine ⟨hlt, ?_⟩
    unfold maskKeys at hn
    rw [List.getElem?_map, keyTuples_get inv ds on n hlt] at hn
    simp only [Option.map_some, Option.some.injEq] at hn
    split at hn
    · cases hn
    · cases hn; rfl
  obtain ⟨l1, e1⟩ := hget i hi
  obtain ⟨l2, e2⟩ := hget j hj
  have := List.map_inj_left.mp (e1.symm.trans e2) c hc
  have hlen := col_length hds (hon c hc)
  rw [List.getElem?_eq_getElem (by omega), List.getElem?_eq_getElem (by omega)]
  rw [List.getD_eq_getElem?_getD, List.getD_eq_getElem?_getD, List.getElem?_eq_getElem (by omega),
    List.getElem?_eq_getElem (by omega)] at this
  exact congrArg some this

section
variable {x : AWorld V α} {a : AArgs V α} {lv rv : List α}

theorem Sorted.lenL (hs : Sorted x a lv rv) (hL : a.left.WF) (hN : Named a) : lv.length = a.left.nrows := by
  have := congrArg List.length hs.left
  rw [List.length_map, List.length_map, col_length hL hN.leftOn] at this
  exact this.symm

theorem Sorted.lenR (hs : Sorted x a lv rv) (hR : a.right.WF) (hN : Named a) : rv.length = a.right.nrows := by
  have := congrArg List.length hs.right
  rw [List.length_map, List.length_map, col_length hR hN.rightOn] at this
  exact this.symm

theorem pairwise_of_all {v : List α}
    (h : ∀ (i j : Nat) (p q : α), i ≤ j → v[i]? = some p → v[j]? = some q → p ≤ q) : v.Pairwise (· ≤ ·) := by
  rw [List.pairwise_iff_getElem]
  intro i j hi hj hij
  exact h i j _ _ hij.le (List.getElem?_eq_getElem hi) (List.getElem?_eq_getElem hj)

/-- The index of `merge_asof2` in terms of a correct ungrouped and a correct grouped kernel. -/
theorem rightIndex_rows [Sub α] (hx : x.OK) (hL : a.left.WF) (hR : a.right.WF) (hN : Named a)
    (hk : a.leftBy.length = a.rightBy.length) (hs : Sorted x a lv rv)
    (P : (Nat → α → Prop) → α → Option Nat → Prop)
    (flat : lv.Pairwise (· ≤ ·) → rv.Pairwise (· ≤ ·) →
      ∃ out, asofIndices x.bounds a.tol a.exact a.dir (lv.map some) (rv.map some) = .ok out ∧
        out.length = lv.length ∧ ∀ (i : Nat) (y : α), lv[i]? = some y →
          ∃ r, out[i]? = some r ∧ P (fun j z => rv[j]? = some z) y r)
    (grouped : ∀ (L R : Grouping (List V)) (lk rk : List (Option (List V))), L.WF lk → R.WF rk →
      lv.length = lk.length → rv.length = rk.length → SortedInGroups lk lv → SortedInGroups rk rv →
      ∀ order : List Nat, order.Perm (List.range L.gbkeys.length) →
      ∃ out, asofGrouped order x.bounds a.tol a.exact a.dir L R (lv.map some) (rv.map some) = .ok out ∧
        out.length = lv.length ∧ ∀ (i : Nat) (y : α), lv[i]? = some y →
          ∃ r, out[i]? = some r ∧ P (sameKey lk rk rv i) y r) :
    ∃ fi, rightIndex x a = .ok fi ∧ ∀ (i : Nat) (y : α), lv[i]? = some y →
      P (Candidate x.w.inv x.w.isnull a rv i) y (fi.getD i none) := by
  have l1 := hs.lenL hL hN
  have l2 := hs.lenR hR hN
  unfold rightIndex
  rw [hs.left, hs.right]
  dsimp only
  split
  · rename_i hby
    have hby' : a.rightBy = [] := by rw [hby] at hk; exact List.length_eq_zero_iff.mp hk.symm
    obtain ⟨out, e1, e2, e3⟩ := flat
      (pairwise_of_all fun i j p q hij => hs.leftAsc i j p q hij (by simp [hby]))
      (pairwise_of_all fun i j p q hij => hs.rightAsc i j p q hij (by simp [hby']))
    refine ⟨out, e1, fun i y hy => ?_⟩
    obtain ⟨r, h1, h2⟩ := e3 i y hy
    rw [List.getD_eq_getElem?_getD, h1, ← cand_noby x a rv i hby hby' (by
      have := (List.getElem?_eq_some_iff.mp hy).1; omega) l2]
    exact h2
  · obtain ⟨out, e1, e2, e3⟩ := grouped _ _ _ _
      (hx.grp (maskKeys (tupleNull x.w.isnull) false (keyTuples x.w.inv a.left a.leftBy)))
      (hx.grp (maskKeys (tupleNull x.w.isnull) true (keyTuples x.w.inv a.right a.rightBy)))
      (by simp [maskKeys, keyTuples, l1]) (by simp [maskKeys, keyTuples, l2])
      (sorted_groups x.w.inv a.left hL a.leftBy hN.leftBy lv _ _ hs.leftAsc)
      (sorted_groups x.w.inv a.right hR a.rightBy hN.rightBy rv _ _ hs.rightAsc)
      (x.order _) (hx.order _)
    refine ⟨out, e1, fun i y hy => ?_⟩
    obtain ⟨r, h1, h2⟩ := e3 i y hy
    rw [List.getD_eq_getElem?_getD, h1, ← cand_eq]
    exact h2

/-- **C60, backward.** Every left row appears once, in order, with all its values; beside it stand
the values of the last right row with the same `by` key at or before it, if within tolerance,
else missing values. -/
theorem mergeAsof2_backward_correct [Sub α] (hx : x.OK) (hL : a.left.WF) (hR : a.right.WF) (hN : Named a)
    (hf : MatchedFree a) (hk : a.leftBy.length = a.rightBy.length) (hs : Sorted x a lv rv)
    (bl : ∀ p ∈ lv, x.bounds.loN ≤ p) (br : ∀ p ∈ rv, x.bounds.loH ≤ p) (hd : a.dir = .backward)
    {m : Mapping} (hm : colnameMapping x.w.ord a.keysL a.keysR a.suffixes a.selL a.selR = .ok m) :
    ∃ (ds : DS V) (f : Nat → Option Nat), mergeAsof2 x a = .ok ds ∧ IsAsof x.w.inv a f ds ∧
      ∀ (i : Nat) (y : α), lv[i]? = some y →
        IsBackward a.exact a.tol (Candidate x.w.inv x.w.isnull a rv i) y (f i) := by
  obtain ⟨fi, h1, h2⟩ := rightIndex_rows hx hL hR hN hk hs
    (fun c y r => IsBackward a.exact a.tol c y r)
    (fun s1 s2 => by
      rw [hd]; exact asof_backward_correct x.bounds a.tol a.exact lv rv s1 s2 bl br)
    (fun L R lk rk wl wr e1 e2 s1 s2 order ho => by
      rw [hd]; exact asof_grouped_backward_correct wl wr x.bounds a.tol a.exact lv rv e1 e2 s1 s2 bl br order ho)
  obtain ⟨ds, e1, e2⟩ := mergeAsof2_of_index x hx a hL hN hf hk hm h1
  exact ⟨ds, _, e1, e2, h2⟩

/-- **C60, forward.** -/
theorem mergeAsof2_forward_correct [Sub α] (hx : x.OK) (hL : a.left.WF) (hR : a.right.WF) (hN : Named a)
    (hf : MatchedFree a) (hk : a.leftBy.length = a.rightBy.length) (hs : Sorted x a lv rv)
    (bl : ∀ p ∈ lv, p ≤ x.bounds.hiN) (br : ∀ p ∈ rv, p ≤ x.bounds.hiH) (hd : a.dir = .forward)
    {m : Mapping} (hm : colnameMapping x.w.ord a.keysL a.keysR a.suffixes a.selL a.selR = .ok m) :
    ∃ (ds : DS V) (f : Nat → Option Nat), mergeAsof2 x a = .ok ds ∧ IsAsof x.w.inv a f ds ∧
      ∀ (i : Nat) (y : α), lv[i]? = some y →
        IsForward a.exact a.tol (Candidate x.w.inv x.w.isnull a rv i) y (f i) := by
  obtain ⟨fi, h1, h2⟩ := rightIndex_rows hx hL hR hN hk hs
    (fun c y r => IsForward a.exact a.tol c y r)
    (fun s1 s2 => by
      rw [hd]; exact asof_forward_correct x.bounds a.tol a.exact lv rv s1 s2 bl br)
    (fun L R lk rk wl wr e1 e2 s1 s2 order ho => by
      rw [hd]; exact asof_grouped_forward_correct wl wr x.bounds a.tol a.exact lv rv e1 e2 s1 s2 bl br order ho)
  obtain ⟨ds, e1, e2⟩ := mergeAsof2_of_index x hx a hL hN hf hk hm h1
  exact ⟨ds, _, e1, e2, h2⟩

end
end

section
variable {V α : Type} [DecidableEq V] [AddCommGroup α] [LinearOrder α] [IsOrderedAddMonoid α]
  {x : AWorld V α} {a : AArgs V α} {lv rv : List α}

/-- **C60, nearest.** -/
theorem mergeAsof2_nearest_correct (hx : x.OK) (hL : a.left.WF) (hR : a.right.WF) (hN : Named a)
    (hf : MatchedFree a) (hk : a.leftBy.length = a.rightBy.length) (hs : Sorted x a lv rv)
    (bl : ∀ p ∈ lv, x.bounds.loN ≤ p ∧ p ≤ x.bounds.hiN) (br : ∀ p ∈ rv, x.bounds.loH ≤ p ∧ p ≤ x.bounds.hiH)
    (hd : a.dir = .nearest)
    {m : Mapping} (hm : colnameMapping x.w.ord a.keysL a.keysR a.suffixes a.selL a.selR = .ok m) :
    ∃ (ds : DS V) (f : Nat → Option Nat), mergeAsof2 x a = .ok ds ∧ IsAsof x.w.inv a f ds ∧
      ∀ (i : Nat) (y : α), lv[i]? = some y →
        IsNearest a.exact a.tol (Candidate x.w.inv x.w.isnull a rv i) y (f i) := by
  obtain ⟨fi, h1, h2⟩ := rightIndex_rows hx hL hR hN hk hs
    (fun c y r => IsNearest a.exact a.tol c y r)
    (fun s1 s2 => by
      rw [hd]; exact asof_nearest_correct x.bounds a.tol a.exact lv rv s1 s2 bl br)
    (fun L R lk rk wl wr e1 e2 s1 s2 order ho => by
      rw [hd]; exact asof_grouped_nearest_correct wl wr x.bounds a.tol a.exact lv rv e1 e2 s1 s2 bl br order ho)
  obtain ⟨ds, e1, e2⟩ := mergeAsof2_of_index x hx a hL hN hf hk hm h1
  exact ⟨ds, _, e1, e2, h2⟩

end

/-! ## Non-vacuity -/

/-- values: integers, `0` is missing and null -/
def exW : AWorld Int Int :=
  { w := { env := exEnv
           group := Grouping.ofKeys, inv := 0, isnull := fun v => v == 0, isStr := fun _ => false
           ord := id, cat := fun n => n }
    key := some, bounds := ⟨-100, -100, 100, 100⟩, order := List.range }

def exA : AArgs Int Int :=
  { left := ⟨4, [(['t'], [1, 5, 6, 9]), (['k'], [1, 2, 1, 0]), (['v'], [10, 20, 30, 40])]⟩
    right := ⟨4, [(['t'], [1, 4, 5, 8]), (['k'], [1, 1, 2, 0]), (['v'], [7, 8, 9, 6])]⟩
    leftOn := ['t'], rightOn := ['t'], leftBy := [['k']], rightBy := [['k']]
    suffixes := some (some ['_', 'x'], some ['_', 'y']), matched := .named ['m'] }

theorem exW_ok : exW.OK := ⟨fun _ => ofKeys_wf _, fun _ => List.Perm.refl _, fun _ => List.Perm.refl _⟩

example : mergeAsof2 exW exA =
    .ok ⟨4, [(['t'], [1, 5, 6, 9]), (['k'], [1, 2, 1, 0]), (['v', '_', 'x'], [10, 20, 30, 40]),
      (['v', '_', 'y'], [7, 9, 8, 0]), (['m'], [1, 5, 4, 0])]⟩ := by decide

example : Named exA ∧ exA.left.WF ∧ exA.right.WF ∧ MatchedFree exA ∧
    Sorted exW exA [1, 5, 6, 9] [1, 4, 5, 8] := by
  refine ⟨⟨by decide, by decide, by decide, by decide, by decide, by decide⟩, ⟨by decide, by decide⟩,
    ⟨by decide, by decide⟩, ?_, ?_⟩
  · intro n hn
    have : n = ['m'] := by simpa [exA, matchedName] using hn.symm
    subst this
    exact ⟨by decide, by decide, by decide⟩
  · have mono : ∀ l : List Int, l.Pairwise (· ≤ ·) → ∀ (i j : Nat) (p q : Int), i ≤ j →
        l[i]? = some p → l[j]? = some q → p ≤ q := by
      intro l hl i j p q hij hp hq
      obtain ⟨hi, rfl⟩ := List.getElem?_eq_some_iff.mp hp
      obtain ⟨hj, rfl⟩ := List.getElem?_eq_some_iff.mp hq
      rcases Nat.lt_or_eq_of_le hij with h | rfl
      · exact List.pairwise_iff_getElem.mp hl i j hi hj h
      · exact le_rfl
    exact ⟨by decide, by decide, fun i j p q hij _ => mono _ (by decide) i j p q hij,
      fun i j p q hij _ => mono _ (by decide) i j p q hij⟩


/-- C60: which columns are requested (all of a side unless a list is given) and which name the
matched column has -/
theorem request_spec {V α : Type} (a : AArgs V α) :
    (a.colsL = none → a.selL = a.left.cols.keys) ∧ (a.colsR = none → a.selR = a.right.cols.keys) ∧
    (∀ l, a.colsL = some l → a.selL = l) ∧ (∀ l, a.colsR = some l → a.selR = l) ∧
    matchedName .no = none ∧
    matchedName .yes = some ['m', 'a', 't', 'c', 'h', 'e', 'd', '_', 'o', 'n'] ∧
    (∀ n, n ≠ [] → matchedName (.named n) = some n) := by
  refine ⟨fun h => ?_, fun h => ?_, fun l h => ?_, fun l h => ?_, rfl, by decide, fun n h => ?_⟩ <;>
    simp [AArgs.selL, AArgs.selR, matchedName, h]

end Verif.AsofDs
