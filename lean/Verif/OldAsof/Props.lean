import Verif.OldAsof.Lemmas
import Verif.AsofDs.Props
import Mathlib.Data.Finset.Max
import Mathlib.Data.Finset.Range
/-! # `merge_asof`: what it matches, and when it refuses -/
namespace Verif.OldAsof
open Verif.Merge Verif.Merge2 Verif.Asof Verif.Items Verif.AsofDs

section
variable {V α δ : Type} [DecidableEq V] [AddCommGroup α] [LinearOrder α]

omit [DecidableEq V] in
/-- no match is reported only if there is none -/
theorem backward_none {exact : Bool} {cand : Nat → α → Prop} {x : α} (n : Nat) (hn : ∀ k y, cand k y → k < n)
    (h : IsBackward exact none cand x none) (k : Nat) (y : α) (c : cand k y) : ¬ Before exact y x := by
  classical
  intro b
  obtain ⟨m, hm, hmax⟩ := Finset.exists_max_image ((Finset.range n).filter fun k => ∃ y, cand k y ∧ Before exact y x) id
    ⟨k, Finset.mem_filter.2 ⟨Finset.mem_range.2 (hn k y c), y, c, b⟩⟩
  obtain ⟨-, z, cz, bz⟩ := Finset.mem_filter.1 hm
  have := (h m).2 ⟨z, cz, bz, (fun t ht => by cases ht), fun j' y' c' b' =>
    hmax j' (Finset.mem_filter.2 ⟨Finset.mem_range.2 (hn j' y' c'), y', c', b'⟩)⟩
  cases this

omit [DecidableEq V] in
theorem forward_none {exact : Bool} {cand : Nat → α → Prop} {x : α} (n : Nat) (hn : ∀ k y, cand k y → k < n)
    (h : IsForward exact none cand x none) (k : Nat) (y : α) (c : cand k y) : ¬ Before exact x y := by
  classical
  intro b
  obtain ⟨m, hm, hmin⟩ := Finset.exists_min_image ((Finset.range n).filter fun k => ∃ y, cand k y ∧ Before exact x y) id
    ⟨k, Finset.mem_filter.2 ⟨Finset.mem_range.2 (hn k y c), y, c, b⟩⟩
  obtain ⟨-, z, cz, bz⟩ := Finset.mem_filter.1 hm
  have := (h m).2 ⟨z, cz, bz, (fun t ht => by cases ht), fun j' y' c' b' =>
    hmin j' (Finset.mem_filter.2 ⟨Finset.mem_range.2 (hn j' y' c'), y', c', b'⟩)⟩
  cases this

variable {x : OWorld V α δ} {a : AArgs V α}

/-- keys of the `on` columns -/
abbrev leftKeys (x : OWorld V α δ) (a : AArgs V α) : List α := (a.left.col a.leftOn).map x.key
abbrev rightKeys (x : OWorld V α δ) (a : AArgs V α) : List α := (a.right.col a.rightOn).map x.key

omit [DecidableEq V] in
theorem sortSide_ok (hx : x.OK) {act : Action} {col : List α} {o : Option (List Nat)} (h : sortSide x act col = .ok o) : Orders col o := by
  unfold sortSide at h
  split at h
  · rename_i hs
    cases h
    exact orders_none ((hx.issorted col).1 hs)
  · cases act with
    | raise => cases h
    | sort => cases h; exact hx.argsort col

/-- The index in the order of the Datasets: for the two directions. -/
theorem indices_ok (hx : x.OK) (hL : a.left.WF) (hR : a.right.WF) (hN : Named a) (hk : a.leftBy.length = a.rightBy.length)
    {la ra : Option (List Nat)} (hl : Orders (leftKeys x a) la) (hr : Orders (rightKeys x a) ra) (fwd : Bool) :
    (indices x a fwd la ra).length = a.left.nrows ∧ ∀ (i : Nat) (y : α), (leftKeys x a)[i]? = some y →
      ∃ r, (indices x a fwd la ra)[i]? = some r ∧
        (if fwd then IsEarliest a.exact (Candidate x.inv x.isnull a (rightKeys x a) i) y r ∧
            (r = none → ∀ j z, Candidate x.inv x.isnull a (rightKeys x a) i j z → ¬ Before a.exact y z)
          else IsLatest a.exact (Candidate x.inv x.isnull a (rightKeys x a) i) y r ∧
            (r = none → ∀ j z, Candidate x.inv x.isnull a (rightKeys x a) i j z → ¬ Before a.exact z y)) := by
  have lenL : (leftKeys x a).length = a.left.nrows := by rw [List.length_map, col_length hL hN.leftOn]
  have lenR : (rightKeys x a).length = a.right.nrows := by rw [List.length_map, col_length hR hN.rightOn]
  have eL : (if a.leftBy = [] then alignKeys x a.left [] else optGather (alignKeys x a.left a.leftBy) la) =
      optGather (rowKeys x.inv x.isnull a.left a.leftBy) la := by
    split
    · rename_i h
      rw [h, alignKeys_eq, gather_noby]
      rw [← lenL]; exact hl.perm
    · rw [alignKeys_eq]
  have eR : (if a.leftBy = [] then alignKeys x a.right [] else optGather (alignKeys x a.right a.rightBy) ra) =
      optGather (rowKeys x.inv x.isnull a.right a.rightBy) ra := by
    split
    · rename_i h
      have : a.rightBy = [] := by rw [h] at hk; exact List.eq_nil_of_length_eq_zero hk.symm
      rw [this, alignKeys_eq, gather_noby]
      rw [← lenR]; exact hr.perm
    · rw [alignKeys_eq]
  have kL : (rowKeys x.inv x.isnull a.left a.leftBy).length = (leftKeys x a).length := by rw [rowKeys_length, lenL]
  have kR : (rowKeys x.inv x.isnull a.right a.rightBy).length = (rightKeys x a).length := by rw [rowKeys_length, lenR]
  have gl := optGather_length (rowKeys x.inv x.isnull a.left a.leftBy) la (by rw [kL]; exact hl.perm)
  have gr := optGather_length (rowKeys x.inv x.isnull a.right a.rightBy) ra (by rw [kR]; exact hr.perm)
  have tl := optGather_length (leftKeys x a) la hl.perm
  have tr := optGather_length (rightKeys x a) ra hr.perm
  obtain ⟨h1, h2⟩ := hx.align (optGather (rowKeys x.inv x.isnull a.left a.leftBy) la)
    (optGather (rowKeys x.inv x.isnull a.right a.rightBy) ra) (optGather (leftKeys x a) la) (optGather (rightKeys x a) ra) fwd a.exact
    (by rw [gl, tl, kL]) (by rw [gr, tr, kR]) (sorted_gather hl) (sorted_gather hr)
  have hdef : indices x a fwd la ra = backTo (scatter (x.align (optGather (rowKeys x.inv x.isnull a.left a.leftBy) la)
      (optGather (rowKeys x.inv x.isnull a.right a.rightBy) ra) (optGather (leftKeys x a) la) (optGather (rightKeys x a) ra) fwd a.exact) la) ra := by
    unfold indices
    simp only []
    rw [eL, eR]
  set q := x.align (optGather (rowKeys x.inv x.isnull a.left a.leftBy) la)
    (optGather (rowKeys x.inv x.isnull a.right a.rightBy) ra) (optGather (leftKeys x a) la) (optGather (rightKeys x a) ra) fwd a.exact with hq
  have lenq : q.length = (leftKeys x a).length := by rw [h1, tl]
  constructor
  · rw [hdef, ← lenL, ← lenq, ← scatter_length q la]
    cases ra with
    | none => rfl
    | some r => exact List.length_map _
  · intro i y hy
    have hi : i < (leftKeys x a).length := (List.getElem?_eq_some_iff.1 hy).1
    obtain ⟨k, hki⟩ := perm_surj hl.perm hi
    have hlk : (optGather (leftKeys x a) la)[k]? = some y := by rw [optGather_get _ _ hl.perm, hki]; exact hy
    obtain ⟨r, hr1, hr2⟩ := h2 k y hlk
    have hsc : (scatter q la)[i]? = some r := by
      rw [scatter_get q la (by rw [lenq]; exact hl.perm) (by rw [lenq]; exact hki)]
      exact hr1
    have hc := cand_back kL kR hl hr hki
    have hv : ∀ (j : Nat) (z : α), Candidate x.inv x.isnull a (rightKeys x a) i j z → (rightKeys x a)[j]? = some z := by
      rintro j z ⟨_, _, _, h⟩; exact h
    have hlt : ∀ (k2 : Nat) (z : α), sameKey (optGather (rowKeys x.inv x.isnull a.left a.leftBy) la)
        (optGather (rowKeys x.inv x.isnull a.right a.rightBy) ra) (optGather (rightKeys x a) ra) k k2 z → k2 < (rightKeys x a).length := by
      rintro k2 z ⟨_, _, _, h⟩
      have := (List.getElem?_eq_some_iff.1 h).1
      rwa [tr] at this
    have hwin : ∀ {j : Nat} {z : α}, Candidate x.inv x.isnull a (rightKeys x a) i j z → ∃ k2 : Nat,
        sameKey (optGather (rowKeys x.inv x.isnull a.left a.leftBy) la)
        (optGather (rowKeys x.inv x.isnull a.right a.rightBy) ra) (optGather (rightKeys x a) ra) k k2 z := by
      intro j z c
      obtain ⟨k2, h⟩ := perm_surj hr.perm (List.getElem?_eq_some_iff.1 (hv j z c)).1
      exact ⟨k2, (hc k2 z).2 ⟨j, h, c⟩⟩
    have hrlt : ∀ k2, r = some k2 → k2 < (rightKeys x a).length := by
      rintro k2 rfl
      cases fwd with
      | true =>
        obtain ⟨z, c, -⟩ := (hr2 k2).1 rfl
        exact hlt k2 z c
      | false =>
        obtain ⟨z, c, -⟩ := (hr2 k2).1 rfl
        exact hlt k2 z c
    have hnone : (r.bind fun k => (perm (rightKeys x a).length ra)[k]?) = none → r = none := by
      intro h
      cases r with
      | none => rfl
      | some k2 =>
        rw [Option.bind_some, List.getElem?_eq_none_iff, hr.perm.length_eq, List.length_range] at h
        exact absurd (hrlt k2 rfl) (not_lt_of_ge h)
    refine ⟨_, by rw [hdef]; exact backTo_get (v := rightKeys x a) (scatter q la) ra i r hsc hrlt, ?_⟩
    cases fwd with
    | true =>
      refine ⟨earliest_back hr _ _ y r hc hv hr2, fun h j z c => ?_⟩
      obtain ⟨k2, hk2⟩ := hwin c
      have e := hnone h
      subst e
      exact forward_none _ hlt hr2 k2 z hk2
    | false =>
      refine ⟨latest_back hr _ _ y r hc hv hr2, fun h j z c => ?_⟩
      obtain ⟨k2, hk2⟩ := hwin c
      have e := hnone h
      subst e
      exact backward_none _ hlt hr2 k2 z hk2

omit [DecidableEq V] in
theorem closer_nearest [IsOrderedAddMonoid α] (x : OWorld V α α) (hd : ∀ p q, x.dist p q = |p - q|) {exact : Bool} {rt : List α} {cand : Nat → α → Prop}
    (hv : ∀ (j : Nat) (z : α), cand j z → rt[j]? = some z) {l : α} {b f : Option Nat}
    (hb : IsLatest exact cand l b) (hb0 : b = none → ∀ j z, cand j z → ¬ Before exact z l)
    (hf : IsEarliest exact cand l f) (hf0 : f = none → ∀ j z, cand j z → ¬ Before exact l z) :
    IsNearest exact none cand l (closer x rt l b f) := by
  have bwin : ∀ j, b = some j → (∀ jf, f = some jf → ∀ y z, rt[j]? = some y → rt[jf]? = some z → |l - y| ≤ |l - z|) →
      IsNearest exact none cand l (some j) := by
    intro j hj hle
    refine ⟨(fun h => by cases h), fun j1 h1 => ?_⟩
    cases h1
    obtain ⟨y, c, by', m⟩ := (hb j).1 hj
    refine ⟨y, c, (eligible_iff _ _ _).2 (Or.inl by'), (fun t ht => by cases ht), fun j' y' c' e' => ?_⟩
    have hle' : |l - y| ≤ |l - y'| := by
      rcases (eligible_iff _ _ _).1 e' with b' | b'
      · rw [abs_before by', abs_before b']
        rcases m j' y' c' b' with h | ⟨h, -⟩
        · exact sub_le_sub_left h.le l
        · rw [h]
      · cases f with
        | none => exact absurd b' (hf0 rfl j' y' c')
        | some jf =>
          obtain ⟨z, cz, bz, mz⟩ := (hf jf).1 rfl
          refine le_trans (hle jf rfl y z (hv _ _ c) (hv _ _ cz)) ?_
          rw [abs_after bz, abs_after b']
          rcases mz j' y' c' b' with h | ⟨h, -⟩
          · exact sub_le_sub_right h.le l
          · rw [h]
    refine ⟨hle', fun heq => ⟨fun hyl => ⟨by'.le, ?_⟩, fun h => absurd by'.le (not_le.2 h)⟩⟩
    have b' : Before exact y' l := by
      cases exact with
      | true => exact hyl
      | false =>
        rcases e' with h | h
        · cases h
        · exact lt_of_le_of_ne hyl h
    rcases m j' y' c' b' with h | ⟨-, h⟩
    · rw [abs_before by', abs_before b'] at heq
      have := sub_right_injective heq
      exact absurd h (by rw [this]; exact lt_irrefl _)
    · exact h
  have fwin : ∀ j, f = some j → (∀ jb, b = some jb → ∀ y z, rt[jb]? = some y → rt[j]? = some z → |l - z| < |l - y|) →
      IsNearest exact none cand l (some j) := by
    intro j hj hlt
    refine ⟨(fun h => by cases h), fun j1 h1 => ?_⟩
    cases h1
    obtain ⟨y, c, by', m⟩ := (hf j).1 hj
    refine ⟨y, c, (eligible_iff _ _ _).2 (Or.inr by'), (fun t ht => by cases ht), fun j' y' c' e' => ?_⟩
    have hbef : Before exact y' l → |l - y| < |l - y'| := by
      intro b'
      cases b with
      | none => exact absurd b' (hb0 rfl j' y' c')
      | some jb =>
        obtain ⟨z, cz, bz, mz⟩ := (hb jb).1 rfl
        refine lt_of_lt_of_le (hlt jb rfl z y (hv _ _ cz) (hv _ _ c)) ?_
        rw [abs_before bz, abs_before b']
        rcases mz j' y' c' b' with h | ⟨h, -⟩
        · exact sub_le_sub_left h.le l
        · rw [h]
    rcases (eligible_iff _ _ _).1 e' with b' | b'
    · exact ⟨(hbef b').le, fun h => absurd h (ne_of_gt (hbef b'))⟩
    · have hle : |l - y| ≤ |l - y'| := by
        rw [abs_after by', abs_after b']
        rcases m j' y' c' b' with h | ⟨h, -⟩
        · exact sub_le_sub_right h.le l
        · rw [h]
      refine ⟨hle, fun heq => ⟨fun hyl => ?_, fun _ => ?_⟩⟩
      · have b'' : Before exact y' l := by
          cases exact with
          | true => exact hyl
          | false =>
            rcases e' with h | h
            · cases h
            · exact lt_of_le_of_ne hyl h
        exact absurd heq (ne_of_gt (hbef b''))
      · rcases m j' y' c' b' with h | ⟨-, h⟩
        · rw [abs_after by', abs_after b'] at heq
          have := sub_left_injective heq
          exact absurd h (by rw [this]; exact lt_irrefl _)
        · exact h
  have hbv : ∀ j, b = some j → ∃ y, rt[j]? = some y := by
    intro j hj; obtain ⟨y, c, -⟩ := (hb j).1 hj; exact ⟨y, hv j y c⟩
  have hfv : ∀ j, f = some j → ∃ y, rt[j]? = some y := by
    intro j hj; obtain ⟨y, c, -⟩ := (hf j).1 hj; exact ⟨y, hv j y c⟩
  cases f with
  | none =>
    cases b with
    | none =>
      refine ⟨fun _ j y c e => ?_, fun j h => by cases h⟩
      rcases (eligible_iff _ _ _).1 e with h | h
      · exact absurd h (hb0 rfl j y c)
      · exact absurd h (hf0 rfl j y c)
    | some jb =>
      have : closer x rt l (some jb) none = some jb := by simp [closer]
      rw [this]
      exact bwin jb rfl (fun jf h => by cases h)
  | some jf =>
    obtain ⟨yf, hyf⟩ := hfv jf rfl
    cases b with
    | none =>
      have : closer x rt l none (some jf) = some jf := by simp [closer, hyf]
      rw [this]
      exact fwin jf rfl (fun jb h => by cases h)
    | some jb =>
      obtain ⟨yb, hyb⟩ := hbv jb rfl
      have : closer x rt l (some jb) (some jf) = if |l - yf| < |l - yb| then some jf else some jb := by
        simp [closer, hyf, hyb, hd]
      rw [this]
      split
      · rename_i hlt
        refine fwin jf rfl (fun jb' h y z h1 h2 => ?_)
        cases h
        rw [hyb] at h1; rw [hyf] at h2
        cases h1; cases h2
        exact hlt
      · rename_i hlt
        refine bwin jb rfl (fun jf' h y z h1 h2 => ?_)
        cases h
        rw [hyb] at h1; rw [hyf] at h2
        cases h1; cases h2
        exact not_lt.1 hlt

/-! ## The merge -/

section
variable [LT δ] [DecidableRel (fun a b : δ => a < b)]

omit [DecidableEq V] [AddCommGroup α] [LinearOrder α] in
theorem rightIndexOld_sides {act : Action} {fi : List (Option Nat)} (h : rightIndexOld x act a = .ok fi) :
    ∃ la ra, sortSide x act (leftKeys x a) = .ok la ∧ sortSide x act (rightKeys x a) = .ok ra := by
  unfold rightIndexOld at h
  split at h
  · cases h
  · cases h
  · rename_i la ra h1 h2
    exact ⟨la, ra, h1, h2⟩

theorem rightIndexOld_len (hx : x.OK) (hL : a.left.WF) (hR : a.right.WF) (hN : Named a) (hk : a.leftBy.length = a.rightBy.length)
    {act : Action} {fi : List (Option Nat)} (h : rightIndexOld x act a = .ok fi) : fi.length = a.left.nrows := by
  unfold rightIndexOld at h
  split at h
  · cases h
  · cases h
  · rename_i la ra h1 h2
    have hl := sortSide_ok hx h1
    have hr := sortSide_ok hx h2
    have e1 := (indices_ok hx hL hR hN hk hl hr false).1
    have e2 := (indices_ok hx hL hR hN hk hl hr true).1
    have lenL : (leftKeys x a).length = a.left.nrows := by rw [List.length_map, col_length hL hN.leftOn]
    split at h <;> cases h
    · exact e1
    · exact e2
    · rw [List.length_zipWith, List.length_zip, e1, e2, lenL]
      simp

/-- Whatever `merge_asof` returns has the rows of the left Dataset in order, and all requested columns under their names.
Nothing is assumed about the order of the columns. -/
theorem mergeAsof_contents (hx : x.OK) (hL : a.left.WF) (hR : a.right.WF) {act : Action} {ds : DS V} (h : mergeAsof x act a = .ok ds) :
    ∃ fi, rightIndexOld x act a = .ok fi ∧ IsAsof x.inv a (fun i => fi.getD i none) ds ∧ Named a ∧ MatchedFree a ∧
      a.leftBy.length = a.rightBy.length := by
  unfold mergeAsof at h
  split at h
  · cases h
  rename_i hp
  have hN := (named_iff a).mp (by simpa using hp)
  split at h
  · cases h
  rename_i hk
  have hk : a.leftBy.length = a.rightBy.length := by simpa using hk
  split at h
  · cases h
  rename_i m hm
  have hm := merge_names_correct hx.ord hm
  split at h
  · cases h
  rename_i fi hfi
  obtain ⟨h1, h2⟩ := assembleAsof_ok x.inv a m hm hL hN fi (rightIndexOld_len hx hL hR hN hk hfi)
  by_cases hf : MatchedFree a
  · obtain ⟨out, ds', e1, e2, e3⟩ := h1 hf
    rw [e1] at h
    dsimp only at h
    rw [e2] at h
    cases h
    exact ⟨fi, hfi, e3, hN, hf, hk⟩
  · obtain ⟨e, he⟩ := h2 hf
    rw [he] at h
    cases h

theorem mergeAsof_of_index (hx : x.OK) (hL : a.left.WF) (hR : a.right.WF) (hN : Named a) (hf : MatchedFree a)
    (hk : a.leftBy.length = a.rightBy.length) {m : Mapping} (hm : colnameMapping x.ord a.keysL a.keysR a.suffixes a.selL a.selR = .ok m)
    {act : Action} {fi : List (Option Nat)} (hfi : rightIndexOld x act a = .ok fi) :
    ∃ ds, mergeAsof x act a = .ok ds ∧ IsAsof x.inv a (fun i => fi.getD i none) ds := by
  obtain ⟨out, ds, e1, e2, e3⟩ := (assembleAsof_ok x.inv a m (merge_names_correct hx.ord hm) hL hN fi
    (rightIndexOld_len hx hL hR hN hk hfi)).1 hf
  refine ⟨ds, ?_, e3⟩
  unfold mergeAsof
  rw [(named_iff a).mpr hN, hm]
  simp only [Bool.not_true, Bool.false_eq_true, if_false]
  rw [if_neg (by simp [hk]), hfi]
  simp only
  rw [e1]
  exact e2

omit [DecidableEq V] [AddCommGroup α] [LinearOrder α] [LT δ] [DecidableRel fun a b : δ => a < b] in
theorem sortSide_sort (x : OWorld V α δ) (col : List α) : ∃ o, sortSide x .sort col = .ok o := by
  unfold sortSide; split
  · exact ⟨_, rfl⟩
  · exact ⟨_, rfl⟩

omit [DecidableEq V] [LT δ] [DecidableRel fun a b : δ => a < b] in
theorem sortSide_sorted (hx : x.OK) (act : Action) {col : List α} (h : col.Pairwise (· ≤ ·)) : ∃ o, sortSide x act col = .ok o :=
  ⟨none, by unfold sortSide; rw [if_pos ((hx.issorted col).2 h)]⟩

/-- the columns are in order, or may be sorted -/
def Accepts (act : Action) (lv rv : List α) : Prop := act = .sort ∨ (lv.Pairwise (· ≤ ·) ∧ rv.Pairwise (· ≤ ·))

omit [DecidableEq V] in
theorem sides_of_accepts (hx : x.OK) {act : Action} (h : Accepts act (leftKeys x a) (rightKeys x a)) :
    ∃ la ra, sortSide x act (leftKeys x a) = .ok la ∧ sortSide x act (rightKeys x a) = .ok ra := by
  rcases h with rfl | ⟨h1, h2⟩
  · obtain ⟨la, e1⟩ := sortSide_sort x (leftKeys x a)
    obtain ⟨ra, e2⟩ := sortSide_sort x (rightKeys x a)
    exact ⟨la, ra, e1, e2⟩
  · obtain ⟨la, e1⟩ := sortSide_sorted hx act h1
    obtain ⟨ra, e2⟩ := sortSide_sorted hx act h2
    exact ⟨la, ra, e1, e2⟩

/-- `merge_asof` with direction backward: beside each left row the right row with the latest key at or before, whatever
the order of the columns. -/
theorem mergeAsof_backward (hx : x.OK) (hL : a.left.WF) (hR : a.right.WF) (hN : Named a) (hf : MatchedFree a)
    (hk : a.leftBy.length = a.rightBy.length) {m : Mapping} (hm : colnameMapping x.ord a.keysL a.keysR a.suffixes a.selL a.selR = .ok m)
    {act : Action} (hs : Accepts act (leftKeys x a) (rightKeys x a)) (hd : a.dir = .backward) :
    ∃ ds f, mergeAsof x act a = .ok ds ∧ IsAsof x.inv a f ds ∧ ∀ (i : Nat) (y : α), (leftKeys x a)[i]? = some y →
      IsMatch .backward a.exact (Candidate x.inv x.isnull a (rightKeys x a) i) y (f i) := by
  obtain ⟨la, ra, e1, e2⟩ := sides_of_accepts hx hs
  have hfi : rightIndexOld x act a = .ok (indices x a false la ra) := by unfold rightIndexOld; rw [e1, e2]; simp only [hd]
  obtain ⟨ds, h1, h2⟩ := mergeAsof_of_index hx hL hR hN hf hk hm hfi
  refine ⟨ds, _, h1, h2, fun i y hy => ?_⟩
  obtain ⟨r, hr, hm, -⟩ := (indices_ok hx hL hR hN hk (sortSide_ok hx e1) (sortSide_ok hx e2) false).2 i y hy
  simp only [List.getD_eq_getElem?_getD, hr, Option.getD_some]
  exact hm

/-- `merge_asof` with direction forward: the right row with the earliest key at or after. -/
theorem mergeAsof_forward (hx : x.OK) (hL : a.left.WF) (hR : a.right.WF) (hN : Named a) (hf : MatchedFree a)
    (hk : a.leftBy.length = a.rightBy.length) {m : Mapping} (hm : colnameMapping x.ord a.keysL a.keysR a.suffixes a.selL a.selR = .ok m)
    {act : Action} (hs : Accepts act (leftKeys x a) (rightKeys x a)) (hd : a.dir = .forward) :
    ∃ ds f, mergeAsof x act a = .ok ds ∧ IsAsof x.inv a f ds ∧ ∀ (i : Nat) (y : α), (leftKeys x a)[i]? = some y →
      IsMatch .forward a.exact (Candidate x.inv x.isnull a (rightKeys x a) i) y (f i) := by
  obtain ⟨la, ra, e1, e2⟩ := sides_of_accepts hx hs
  have hfi : rightIndexOld x act a = .ok (indices x a true la ra) := by unfold rightIndexOld; rw [e1, e2]; simp only [hd]
  obtain ⟨ds, h1, h2⟩ := mergeAsof_of_index hx hL hR hN hf hk hm hfi
  refine ⟨ds, _, h1, h2, fun i y hy => ?_⟩
  obtain ⟨r, hr, hm, -⟩ := (indices_ok hx hL hR hN hk (sortSide_ok hx e1) (sortSide_ok hx e2) true).2 i y hy
  simp only [List.getD_eq_getElem?_getD, hr, Option.getD_some]
  exact hm

/-- What `merge_asof` refuses: other numbers of `by` columns, a taken name for the matched key, unknown columns, clashing
names without suffixes, and, if asked to, columns out of order. -/
theorem mergeAsof_refuses (hx : x.OK) (hL : a.left.WF) (hR : a.right.WF) (act : Action)
    (h : a.leftBy.length ≠ a.rightBy.length ∨ ¬ MatchedFree a ∨ ¬ Named a ∨
      ((∃ c, clashes a.keysL a.keysR a.selL a.selR c) ∧ sufL a.suffixes = sufR a.suffixes) ∨
      ¬ Accepts act (leftKeys x a) (rightKeys x a)) :
    ∃ e, mergeAsof x act a = .error e := by
  cases hr : mergeAsof x act a with
  | error e => exact ⟨e, rfl⟩
  | ok ds =>
    obtain ⟨fi, h0, _, h1, h2, h3⟩ := mergeAsof_contents hx hL hR hr
    rcases h with h | h | h | ⟨⟨c, hc⟩, h⟩ | h
    · exact absurd h3 h
    · exact absurd h2 h
    · exact absurd h1 h
    · obtain ⟨e, he⟩ := merge_names_refused hx.ord _ _ _ _ _ c hc h
      unfold mergeAsof at hr
      rw [(named_iff a).mpr h1, he] at hr
      simp only [Bool.not_true, Bool.false_eq_true, if_false] at hr
      split at hr <;> cases hr
    · refine absurd ?_ h
      obtain ⟨la, ra, e1, e2⟩ := rightIndexOld_sides h0
      cases act with
      | sort => exact Or.inl rfl
      | raise =>
        have : ∀ {col : List α} {o}, sortSide x .raise col = .ok o → col.Pairwise (· ≤ ·) := by
          intro col o h
          unfold sortSide at h
          split at h
          · rename_i hs; exact (hx.issorted col).1 hs
          · cases h
        exact Or.inr ⟨this e1, this e2⟩

end

/-- `merge_asof` with direction nearest: a right row at the smallest distance, the earlier key in case of a tie. -/
theorem mergeAsof_nearest [IsOrderedAddMonoid α] {x : OWorld V α α} (hx : x.OK) (hdist : ∀ p q, x.dist p q = |p - q|) (hL : a.left.WF) (hR : a.right.WF) (hN : Named a)
    (hf : MatchedFree a) (hk : a.leftBy.length = a.rightBy.length) {m : Mapping}
    (hm : colnameMapping x.ord a.keysL a.keysR a.suffixes a.selL a.selR = .ok m)
    {act : Action} (hs : Accepts act (leftKeys x a) (rightKeys x a)) (hd : a.dir = .nearest) :
    ∃ ds f, mergeAsof x act a = .ok ds ∧ IsAsof x.inv a f ds ∧ ∀ (i : Nat) (y : α), (leftKeys x a)[i]? = some y →
      IsMatch .nearest a.exact (Candidate x.inv x.isnull a (rightKeys x a) i) y (f i) := by
  obtain ⟨la, ra, e1, e2⟩ := sides_of_accepts hx hs
  have hfi : rightIndexOld x act a = .ok (List.zipWith (fun (l : α) (e : Option Nat × Option Nat) => closer x (rightKeys x a) l e.1 e.2)
          (leftKeys x a) ((indices x a false la ra).zip (indices x a true la ra))) := by
    unfold rightIndexOld; rw [e1, e2]; simp only [hd]
  obtain ⟨ds, h1, h2⟩ := mergeAsof_of_index hx hL hR hN hf hk hm hfi
  refine ⟨ds, _, h1, h2, fun i y hy => ?_⟩
  obtain ⟨rb, hrb, hb, hb0⟩ := (indices_ok hx hL hR hN hk (sortSide_ok hx e1) (sortSide_ok hx e2) false).2 i y hy
  obtain ⟨rf, hrf, hfw, hf0⟩ := (indices_ok hx hL hR hN hk (sortSide_ok hx e1) (sortSide_ok hx e2) true).2 i y hy
  have hz : ((indices x a false la ra).zip (indices x a true la ra))[i]? = some (rb, rf) := List.getElem?_zip_eq_some.2 ⟨hrb, hrf⟩
  simp only [List.getD_eq_getElem?_getD, List.getElem?_zipWith, hy, hz, Option.getD_some]
  refine closer_nearest x hdist ?_ hb hb0 hfw hf0
  rintro j z ⟨_, _, _, h⟩
  exact h

/-! ## In terms of the sorted case -/

omit [AddCommGroup α] [DecidableEq V] in
/-- For candidates in ascending order the latest row is the last row at or before. -/
theorem latest_iff_backward [AddCommGroup α] {exact : Bool} {cand : Nat → α → Prop} {y : α} {r : Option Nat}
    (hs : ∀ j p j' q, cand j p → cand j' q → j ≤ j' → p ≤ q) : IsLatest exact cand y r ↔ IsBackward exact none cand y r := by
  unfold IsLatest IsBackward
  refine forall_congr' fun j => iff_congr Iff.rfl (exists_congr fun z => ?_)
  constructor
  · rintro ⟨c, b, m⟩
    refine ⟨c, b, (fun t ht => by cases ht), fun j' y' c' b' => ?_⟩
    rcases m j' y' c' b' with h | ⟨-, h⟩
    · by_contra hlt
      exact absurd (hs j z j' y' c c' (Nat.le_of_not_le hlt)) (not_le.2 h)
    · exact h
  · rintro ⟨c, b, -, m⟩
    refine ⟨c, b, fun j' y' c' b' => ?_⟩
    have hle := m j' y' c' b'
    rcases lt_or_eq_of_le (hs j' y' j z c' c hle) with h | h
    · exact Or.inl h
    · exact Or.inr ⟨h, hle⟩

omit [AddCommGroup α] [DecidableEq V] in
theorem earliest_iff_forward [AddCommGroup α] {exact : Bool} {cand : Nat → α → Prop} {y : α} {r : Option Nat}
    (hs : ∀ j p j' q, cand j p → cand j' q → j ≤ j' → p ≤ q) : IsEarliest exact cand y r ↔ IsForward exact none cand y r := by
  unfold IsEarliest IsForward
  refine forall_congr' fun j => iff_congr Iff.rfl (exists_congr fun z => ?_)
  constructor
  · rintro ⟨c, b, m⟩
    refine ⟨c, b, (fun t ht => by cases ht), fun j' y' c' b' => ?_⟩
    rcases m j' y' c' b' with h | ⟨-, h⟩
    · by_contra hlt
      exact absurd (hs j' y' j z c' c (Nat.le_of_not_le hlt)) (not_le.2 h)
    · exact h
  · rintro ⟨c, b, -, m⟩
    refine ⟨c, b, fun j' y' c' b' => ?_⟩
    have hle := m j' y' c' b'
    rcases lt_or_eq_of_le (hs j z j' y' c c' hle) with h | h
    · exact Or.inl h
    · exact Or.inr ⟨h, hle⟩

end
end Verif.OldAsof
