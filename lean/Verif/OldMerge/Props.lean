import Verif.OldMerge.Model
import Verif.OldMerge.Spec
import Verif.Merge2.Lookup
/-!
# C105-C107: `merge`
-/
namespace Verif.OldMerge
open Verif.Merge Verif.Merge2 Verif.Items

variable {V : Type} [DecidableEq V]

/-- contract of `unique32` (C++): a place of every different key, each once -/
structure UniqueOK (u : List (List V) → List Nat) : Prop where
  lt : ∀ ks, ∀ i ∈ u ks, i < ks.length
  nodup : ∀ ks, ((u ks).filterMap fun (i : Nat) => ks[i]?).Nodup
  all : ∀ ks, ∀ k ∈ ks, k ∈ (u ks).filterMap fun (i : Nat) => ks[i]?

/-! ## keys -/

theorem rowKeys_eq (inv : V) (isnull : V → Bool) (ds : DS V) (on : List Name) :
    rowKeys inv isnull ds on = (keyTuples inv ds on).map fun t => if tupleNull isnull t then none else some t := by
  unfold rowKeys keyTuples tupleNull
  rw [List.map_map]
  rfl

theorem findIdx?_head {A : Type} (p : A → Bool) (l : List A) :
    l.findIdx? p = ((List.range l.length).filter fun (j : Nat) => (l[j]?.map p).getD false).head? := by
  induction l with
  | nil => rfl
  | cons a l ih =>
    rw [List.findIdx?_cons, List.length_cons, List.range_succ_eq_map, List.filter_cons]
    simp only [List.getElem?_cons_zero, Option.map_some, Option.getD_some]
    split
    · rfl
    · rw [ih, List.filter_map]
      simp only [List.head?_map]
      congr 2

/-- the first row with a key, found in the tuples -/
theorem found_first (isnull : V → Bool) (ref : List (List V)) (k : List V) :
    (if tupleNull isnull k then none else ref.findIdx? fun x => decide (x = k)) =
      first (ref.map fun t => if tupleNull isnull t then none else some t) (if tupleNull isnull k then none else some k) := by
  by_cases hk : tupleNull isnull k = true
  · rw [if_pos hk, if_pos hk]; rfl
  · rw [if_neg hk, if_neg hk, findIdx?_head]
    unfold first matching
    simp only [List.length_map]
    congr 1
    apply List.filter_congr
    intro j hj
    rw [List.mem_range] at hj
    rw [List.getElem?_map, List.getElem?_eq_getElem hj, Option.map_some, Option.map_some, Option.getD_some]
    by_cases hn : tupleNull isnull ref[j] = true
    · rw [if_pos hn]
      have : ref[j] ≠ k := fun h => hk (h ▸ hn)
      simp [this]
    · rw [if_neg hn]
      by_cases he : ref[j] = k
      · simp [he]
      · simp [he]

/-- two rows paired by their first match have the same key -/
theorem first_key {K : Type} [DecidableEq K] (keys : List (Option K)) (k : Option K) (j : Nat) (h : first keys k = some j) :
    k ≠ none ∧ keys[j]? = some k := by
  unfold first at h
  obtain ⟨k', rfl, h2⟩ := (mem_matching keys k j).mp (List.mem_of_head? h)
  exact ⟨by simp, h2⟩

theorem found_eq (isnull : V → Bool) (ks ref : List (List V)) :
    found isnull ks ref = ks.map fun k => first (ref.map fun t => if tupleNull isnull t then none else some t)
      (if tupleNull isnull k then none else some k) := by
  unfold found
  exact List.map_congr_left fun k _ => found_first isnull ref k

/-! ## the row pairs -/

section
variable (w : World V) (a : Args V)

/-- keys of the left and right rows -/
abbrev lk : List (Option (List V)) := rowKeys w.inv w.isnull a.left a.leftOn
abbrev rk : List (Option (List V)) := rowKeys w.inv w.isnull a.right a.rightOn

end

theorem zip_map_self {A B C : Type} (l : List A) (f : A → B) (g : A → C) : (l.map f).zip (l.map g) = l.map fun x => (f x, g x) := by
  induction l with
  | nil => rfl
  | cons a l ih => simp [ih]

theorem tuples_length (inv : V) (ds : DS V) (on : List Name) : (keyTuples inv ds on).length = ds.nrows := by simp [keyTuples]

theorem map_range_getD {A B : Type} (l : List A) (d : A) (f : A → B) : (List.range l.length).map (fun (i : Nat) => f (l.getD i d)) = l.map f := by
  apply List.ext_getElem?
  intro i
  by_cases h : i < l.length
  · simp [h]
  · simp [h]

/-- the row pairs of `how='left'` -/
theorem left_rows (w : World V) (a : Args V) :
    (indices w .left (keyTuples w.inv a.left a.leftOn) (keyTuples w.inv a.right a.rightOn)).rows a.left.nrows a.right.nrows =
      some (leftRows (lk w a) (rk w a)) := by
  unfold indices JoinIndices.rows
  simp only [constructIndex, if_true, Option.getD_none, Option.getD_some, reduceCtorEq, if_false]
  rw [if_pos (by simp [found, tuples_length])]
  congr 1
  unfold leftRows
  have hl : (lk w a).length = a.left.nrows := by simp [rowKeys]
  rw [found_eq, ← rowKeys_eq, hl]
  have : (keyTuples w.inv a.left a.leftOn).map (fun k => first (rk w a) (if tupleNull w.isnull k then none else some k)) =
      (List.range a.left.nrows).map fun (i : Nat) => first (rk w a) ((lk w a).getD i none) := by
    rw [← hl, map_range_getD (lk w a) none (first (rk w a))]
    show _ = (rowKeys _ _ _ _).map _
    rw [rowKeys_eq, List.map_map]
    rfl
  rw [this, zip_map_self]

theorem right_rows (w : World V) (a : Args V) :
    (indices w .right (keyTuples w.inv a.left a.leftOn) (keyTuples w.inv a.right a.rightOn)).rows a.left.nrows a.right.nrows =
      some (rightRows (lk w a) (rk w a)) := by
  unfold indices JoinIndices.rows
  simp only [constructIndex, if_true, Option.getD_none, Option.getD_some, reduceCtorEq, if_false]
  rw [if_pos (by simp [found, tuples_length])]
  congr 1
  unfold rightRows
  have hl : (rk w a).length = a.right.nrows := by simp [rowKeys]
  rw [found_eq, ← rowKeys_eq, hl]
  have : (keyTuples w.inv a.right a.rightOn).map (fun k => first (lk w a) (if tupleNull w.isnull k then none else some k)) =
      (List.range a.right.nrows).map fun (i : Nat) => first (lk w a) ((rk w a).getD i none) := by
    rw [← hl, map_range_getD (rk w a) none (first (lk w a))]
    show _ = (rowKeys _ _ _ _).map _
    rw [rowKeys_eq, List.map_map]
    rfl
  rw [this, zip_map_self]

/-- the row pairs of `how='outer'` -/
theorem outer_rows (w : World V) (hu : UniqueOK w.unique32) (a : Args V) :
    ∃ rows, (indices w .outer (keyTuples w.inv a.left a.leftOn) (keyTuples w.inv a.right a.rightOn)).rows a.left.nrows a.right.nrows =
      some rows ∧ IsOuter (keyTuples w.inv a.left a.leftOn) (keyTuples w.inv a.right a.rightOn) (lk w a) (rk w a) rows (tupleNull w.isnull) := by
  refine ⟨_, ?_, constructIndex w .outer (keyTuples w.inv a.left a.leftOn) (keyTuples w.inv a.right a.rightOn), hu.nodup _, fun k => ?_, rfl⟩
  · unfold indices JoinIndices.rows
    simp only [reduceCtorEq, if_false, Option.getD_some]
    rw [if_pos (by simp [found])]
    congr 1
    rw [found_eq, found_eq, ← rowKeys_eq, ← rowKeys_eq, zip_map_self]
    refine List.map_congr_left fun k _ => ?_
    by_cases hk : tupleNull w.isnull k = true
    · rw [if_pos hk, if_pos hk]; rfl
    · rw [if_neg hk, if_neg hk]
  · rw [← List.mem_append]
    constructor
    · intro h
      obtain ⟨i, _, hi⟩ := List.mem_filterMap.1 h
      exact List.mem_of_getElem? hi
    · exact hu.all _ k

/-- the row pairs of `how='inner'`: every left row that has a partner, but with the first left row of the same key in its place -/
def innerExact {K : Type} [DecidableEq K] (lk rk : List (Option K)) : List (Option Nat × Option Nat) :=
  (lk.filter fun k => (first rk k).isSome).map fun k => (first lk k, first rk k)

theorem inner_rows (w : World V) (a : Args V) :
    (indices w .inner (keyTuples w.inv a.left a.leftOn) (keyTuples w.inv a.right a.rightOn)).rows a.left.nrows a.right.nrows =
      some (innerExact (lk w a) (rk w a)) := by
  unfold indices JoinIndices.rows
  simp only [reduceCtorEq, if_false, Option.getD_some]
  rw [if_pos (by simp [found])]
  congr 1
  unfold innerExact constructIndex
  simp only
  rw [found_eq w.isnull (keyTuples w.inv a.left a.leftOn), ← rowKeys_eq]
  have e : ((keyTuples w.inv a.left a.leftOn).zip ((keyTuples w.inv a.left a.leftOn).map fun k =>
      first (rowKeys w.inv w.isnull a.right a.rightOn) (if tupleNull w.isnull k then none else some k))) =
      (keyTuples w.inv a.left a.leftOn).map fun k => (k, first (rowKeys w.inv w.isnull a.right a.rightOn) (if tupleNull w.isnull k then none else some k)) := by
    have := zip_map_self (keyTuples w.inv a.left a.leftOn) id fun k =>
      first (rowKeys w.inv w.isnull a.right a.rightOn) (if tupleNull w.isnull k then none else some k)
    rwa [List.map_id] at this
  rw [e, List.filter_map, List.map_map, found_eq, found_eq, ← rowKeys_eq, ← rowKeys_eq, zip_map_self]
  show _ = ((rowKeys w.inv w.isnull a.left a.leftOn).filter _).map _
  conv => rhs; rw [rowKeys_eq w.inv w.isnull a.left a.leftOn, List.filter_map, List.map_map]
  simp only [List.map_map, Function.comp_def]

/-! ## from row pairs to the Dataset -/

theorem foldl_setAll {W : Type} (cs : List Name) (f : Name → W) (o : Dict Name W) :
    cs.foldl (fun o c => o.set c (f c)) o = setAll (cs.map fun c => (c, f c)) o := by
  unfold setAll
  rw [List.foldl_map]

/-- a common key column, given the row pairs -/
theorem keyColumn_rows (inv : V) (how : How) (j : JoinIndices) (nl nr : Nat) (rows : List (Option Nat × Option Nat)) (lcol rcol : List V)
    (hj : j.rows nl nr = some rows) (hl : lcol.length = nl) (hr : rcol.length = nr)
    (hjl : how = .left → j.left = none) (hjr : how = .right → j.right = none)
    (hjo : how = .outer → (∃ l, j.left = some l) ∧ ∃ r, j.right = some r)
    (hin : how = .inner → ∀ p ∈ rows, p.1.isSome)
    (hagree : ∀ i k, (some i, some k) ∈ rows → lcol.getD i inv = rcol.getD k inv) :
    keyColumn inv how j lcol rcol = rows.map (keyCell inv lcol rcol) := by
  have fl := fetch_left hj inv lcol hl
  have fr := fetch_right hj inv rcol hr
  have hcell : ∀ p ∈ rows, p.1.isSome → cell inv lcol p.1 = keyCell inv lcol rcol p := by
    rintro ⟨p1, p2⟩ _ h
    obtain ⟨i, rfl⟩ := Option.isSome_iff_exists.1 h
    rfl
  have hzip : rows = (j.left.getD ((List.range nl).map some)).zip (j.right.getD ((List.range nr).map some)) := by
    unfold JoinIndices.rows at hj
    dsimp only at hj
    split at hj
    · exact (Option.some.inj hj).symm
    · cases hj
  cases how with
  | left =>
    have h1 := hjl rfl
    rw [h1] at fl hzip
    show fetch inv lcol none = _
    rw [fl]
    refine List.map_congr_left fun p hp => ?_
    apply hcell p hp
    rw [hzip] at hp
    have := (List.of_mem_zip hp).1
    rw [Option.getD_none] at this
    obtain ⟨i, _, hi⟩ := List.mem_map.1 this
    rw [← hi]; rfl
  | right =>
    have h1 := hjr rfl
    rw [h1] at fr hzip
    show fetch inv rcol none = _
    rw [fr]
    refine List.map_congr_left fun p hp => ?_
    have hp' := hp
    rw [hzip] at hp
    have := (List.of_mem_zip hp).2
    rw [Option.getD_none] at this
    obtain ⟨k, _, hk⟩ := List.mem_map.1 this
    obtain ⟨p1, p2⟩ := p
    dsimp only at hk
    subst hk
    cases p1 with
    | none => rfl
    | some i => exact (hagree i k hp').symm
  | inner =>
    show fetch inv lcol j.left = _
    rw [fl]
    exact List.map_congr_left fun p hp => hcell p hp (hin rfl p hp)
  | outer =>
    obtain ⟨⟨l, h1⟩, r, h2⟩ := hjo rfl
    show List.zipWith _ (List.zipWith _ (j.left.getD []) (j.right.getD [])) ((mbget inv lcol (j.left.getD [])).zip (mbget inv rcol (j.right.getD []))) = _
    rw [h1, h2] at hzip ⊢
    simp only [Option.getD_some] at hzip ⊢
    have hlen : l.length = r.length := by
      unfold JoinIndices.rows at hj
      simp only [h1, h2, Option.getD_some] at hj
      split at hj
      · assumption
      · cases hj
    have el : l = rows.map Prod.fst := by rw [hzip, List.map_fst_zip (by omega)]
    have er : r = rows.map Prod.snd := by rw [hzip, List.map_snd_zip (by omega)]
    rw [el, er]
    unfold mbget
    apply List.ext_getElem?
    intro i
    simp only [List.getElem?_zipWith, List.zip, List.getElem?_map]
    rcases hp : rows[i]? with _ | ⟨p1, p2⟩
    · simp
    · simp only [Option.map_some]
      cases p1 with
      | none =>
        cases p2 with
        | none => simp [keyCell, cell]
        | some k => simp [keyCell, cell]
      | some i => simp [keyCell]

theorem norm_sufL (s : Suffixes) : (sufL (normSuffixes s)).getD [] = (sufL s).getD [] := by
  rcases s with _ | ⟨x, y⟩
  · rfl
  · simp only [normSuffixes]
    split
    · rename_i h
      simp [sufL, h.1]
    · rfl

theorem norm_sufR (s : Suffixes) : (sufR (normSuffixes s)).getD [] = (sufR s).getD [] := by
  rcases s with _ | ⟨x, y⟩
  · rfl
  · simp only [normSuffixes]
    split
    · rename_i h
      simp [sufR, h.2]
    · rfl

theorem outName_norm {leftOn rightOn colsL colsR : List Name} {s s' : Option Name} (h : s.getD [] = s'.getD []) (c : Name) :
    outName leftOn rightOn colsL colsR s c = outName leftOn rightOn colsL colsR s' c := by
  unfold outName
  rw [h]

/-- the names can be resolved -/
def Named (w : World V) (a : Args V) : Prop :=
  ∃ m, colnameMapping w.ord a.leftOn a.rightOn (normSuffixes a.suffixes) a.selL a.selR = .ok m

theorem merge_of_rows (w : World V) (hord : ∀ l, (w.ord l).Perm l) (a : Args V) (ha : a.Checked) (hnr : a.requireMatch = false) (hon : a.leftOn ≠ [])
    (hn : Named w a) (rows : List (Option Nat × Option Nat))
    (hj : (indices w a.how (keyTuples w.inv a.left a.leftOn) (keyTuples w.inv a.right a.rightOn)).rows a.left.nrows a.right.nrows = some rows)
    (hin : a.how = .inner → ∀ p ∈ rows, p.1.isSome)
    (hsame : ∀ i k, (some i, some k) ∈ rows → ∃ t, (lk w a)[i]? = some (some t) ∧ (rk w a)[k]? = some (some t)) :
    ∃ out, merge w a = .ok out ∧ IsMerged w.inv w.cat a rows out := by
  obtain ⟨m, hm⟩ := hn
  have hagree : ∀ c, common a.leftOn a.rightOn c → ∀ i k, (some i, some k) ∈ rows →
      (a.left.col c).getD i w.inv = (a.right.col c).getD k w.inv := by
    intro c hc i k hp
    obtain ⟨t, h1, h2⟩ := hsame i k hp
    have e := (rowKeys_get h1).symm.trans (rowKeys_get h2)
    have hz := ha.paired c hc
    have z1 : (a.leftOn.zip a.rightOn).map Prod.fst = a.leftOn := List.map_fst_zip ha.len.le
    have z2 : (a.leftOn.zip a.rightOn).map Prod.snd = a.rightOn := List.map_snd_zip ha.len.ge
    have e' : (a.leftOn.zip a.rightOn).map (fun (p : Name × Name) => (a.left.col p.1).getD i w.inv) =
        (a.leftOn.zip a.rightOn).map fun (p : Name × Name) => (a.right.col p.2).getD k w.inv := by
      have x1 := List.map_map (l := a.leftOn.zip a.rightOn) (f := Prod.fst) (g := fun c => (a.left.col c).getD i w.inv)
      have x2 := List.map_map (l := a.leftOn.zip a.rightOn) (f := Prod.snd) (g := fun c => (a.right.col c).getD k w.inv)
      rw [z1] at x1
      rw [z2] at x2
      exact (x1.symm.trans e).trans x2
    exact List.map_inj_left.mp e' (c, c) hz
  obtain ⟨out, ds, h1, h2, h3⟩ := finish_ok w.toWorld { a with suffixes := normSuffixes a.suffixes } m (merge_names_correct hord hm)
    ha.left ha.right ha.selL ha.selR (indices w a.how (keyTuples w.inv a.left a.leftOn) (keyTuples w.inv a.right a.rightOn)) rows hj
    (by unfold indices; cases a.how <;> simp)
    (by intro h; rw [hnr] at h; cases h)
    (by
      intro n hnn
      obtain ⟨i1, i2, i3⟩ := ha.ind n hnn
      exact ⟨i1, fun c h1 h2 => by rw [outName_norm (norm_sufL a.suffixes)]; exact i2 c h1 h2,
        fun c h1 h2 => by rw [outName_norm (norm_sufR a.suffixes)]; exact i3 c h1 h2⟩)
  refine ⟨ds, ?_, ?_⟩
  · unfold merge
    rw [ha.present, hm]
    simp only [Bool.not_true, Bool.false_eq_true, if_false]
    rw [if_neg (by simp [ha.len]), if_neg hon, foldl_setAll]
    have hk : (m.inter.map fun c => (c, keyColumn w.inv a.how (indices w a.how (keyTuples w.inv a.left a.leftOn) (keyTuples w.inv a.right a.rightOn))
        (a.left.col c) (a.right.col c))) = m.inter.map fun c => (c, rows.map (keyCell w.inv (a.left.col c) (a.right.col c))) := by
      refine List.map_congr_left fun c hc => ?_
      have hcm := ((merge_names_correct hord hm).inter c).mp hc
      congr 1
      refine keyColumn_rows w.inv a.how _ _ _ rows _ _ hj (col_length ha.left (ha.leftOn c hcm.1)) (col_length ha.right (ha.rightOn c hcm.2))
        ?_ ?_ ?_ hin (hagree c hcm)
      · intro h; simp [indices, h]
      · intro h; simp [indices, h]
      · intro h; simp [indices, h]
    rw [hk]
    have h1' : finish w.toWorld (indices w a.how (keyTuples w.inv a.left a.leftOn) (keyTuples w.inv a.right a.rightOn)) a.left a.right m false
        a.indicator (setAll (m.inter.map fun c => (c, rows.map (keyCell w.inv (a.left.col c) (a.right.col c)))) []) = .ok out := by
      rw [← hnr]; exact h1
    rw [h1']
    exact h2
  · exact
      { key := h3.key
        left := fun c h1 h2 => by rw [← outName_norm (norm_sufL a.suffixes)]; exact h3.left c h1 h2
        right := fun c h1 h2 => by rw [← outName_norm (norm_sufR a.suffixes)]; exact h3.right c h1 h2
        ind := h3.ind
        only := fun n => by
          rw [h3.only n]
          have e1 : ∀ c, outName a.leftOn a.rightOn a.selL a.selR (sufL (normSuffixes a.suffixes)) c =
            outName a.leftOn a.rightOn a.selL a.selR (sufL a.suffixes) c := fun c => outName_norm (norm_sufL a.suffixes) c
          have e2 : ∀ c, outName a.leftOn a.rightOn a.selL a.selR (sufR (normSuffixes a.suffixes)) c =
            outName a.leftOn a.rightOn a.selL a.selR (sufR a.suffixes) c := fun c => outName_norm (norm_sufR a.suffixes) c
          constructor
          · rintro (h | ⟨c, h1, h2, h⟩ | ⟨c, h1, h2, h⟩ | h)
            · exact .inl h
            · exact .inr (.inl ⟨c, h1, h2, h.trans (e1 c)⟩)
            · exact .inr (.inr (.inl ⟨c, h1, h2, h.trans (e2 c)⟩))
            · exact .inr (.inr (.inr h))
          · rintro (h | ⟨c, h1, h2, h⟩ | ⟨c, h1, h2, h⟩ | h)
            · exact .inl h
            · exact .inr (.inl ⟨c, h1, h2, h.trans (e1 c).symm⟩)
            · exact .inr (.inr (.inl ⟨c, h1, h2, h.trans (e2 c).symm⟩))
            · exact .inr (.inr (.inr h))
        nodup := h3.nodup
        nrows := h3.nrows }

/-! ## the theorems -/

theorem getD_key {K : Type} {l : List (Option K)} {i : Nat} {t : K} (h : l.getD i none = some t) : l[i]? = some (some t) := by
  rw [List.getD_eq_getElem?_getD] at h
  cases hh : l[i]? with
  | none => rw [hh] at h; cases h
  | some x => rw [hh, Option.getD_some] at h; rw [h]

theorem leftRows_same {K : Type} [DecidableEq K] (lk rk : List (Option K)) (i k : Nat) (h : (some i, some k) ∈ leftRows lk rk) :
    ∃ t, lk[i]? = some (some t) ∧ rk[k]? = some (some t) := by
  unfold leftRows at h
  obtain ⟨i', _, e⟩ := List.mem_map.1 h
  injection e with e1 e2
  obtain rfl := Option.some.inj e1
  obtain ⟨h1, h2⟩ := first_key _ _ _ e2
  obtain ⟨t, ht⟩ := Option.ne_none_iff_exists'.1 h1
  rw [ht] at h2
  exact ⟨t, getD_key ht, h2⟩

theorem rightRows_same {K : Type} [DecidableEq K] (lk rk : List (Option K)) (i k : Nat) (h : (some i, some k) ∈ rightRows lk rk) :
    ∃ t, lk[i]? = some (some t) ∧ rk[k]? = some (some t) := by
  unfold rightRows at h
  obtain ⟨i', _, e⟩ := List.mem_map.1 h
  injection e with e1 e2
  obtain rfl := Option.some.inj e2
  obtain ⟨h1, h2⟩ := first_key _ _ _ e1
  obtain ⟨t, ht⟩ := Option.ne_none_iff_exists'.1 h1
  rw [ht] at h2
  exact ⟨t, h2, getD_key ht⟩

/-- **C105** `merge(how='left')`, on any number of key columns: the result is the Dataset of every left row, in order, with the first
right row that has the same key, or with invalid values if there is none. -/
theorem merge_left (w : World V) (hord : ∀ l, (w.ord l).Perm l) (a : Args V) (ha : a.Checked) (hnr : a.requireMatch = false)
    (hon : a.leftOn ≠ []) (hn : Named w a) (hh : a.how = .left) :
    ∃ out, merge w a = .ok out ∧ IsMerged w.inv w.cat a
      (leftRows (rowKeys w.inv w.isnull a.left a.leftOn) (rowKeys w.inv w.isnull a.right a.rightOn)) out := by
  refine merge_of_rows w hord a ha hnr hon hn _ ?_ ?_ (leftRows_same _ _)
  · rw [hh]; exact left_rows w a
  · intro h; rw [hh] at h; cases h

/-- **C105** `merge(how='right')`: every right row, in order, with the first left row that has the same key. -/
theorem merge_right (w : World V) (hord : ∀ l, (w.ord l).Perm l) (a : Args V) (ha : a.Checked) (hnr : a.requireMatch = false)
    (hon : a.leftOn ≠ []) (hn : Named w a) (hh : a.how = .right) :
    ∃ out, merge w a = .ok out ∧ IsMerged w.inv w.cat a
      (rightRows (rowKeys w.inv w.isnull a.left a.leftOn) (rowKeys w.inv w.isnull a.right a.rightOn)) out := by
  refine merge_of_rows w hord a ha hnr hon hn _ ?_ ?_ (rightRows_same _ _)
  · rw [hh]; exact right_rows w a
  · intro h; rw [hh] at h; cases h

/-- **C106** `merge(how='outer')`: one row for every different key of either side, made of the first left and the first right row that
have it. -/
theorem merge_outer (w : World V) (hord : ∀ l, (w.ord l).Perm l) (hu : UniqueOK w.unique32) (a : Args V) (ha : a.Checked)
    (hnr : a.requireMatch = false) (hon : a.leftOn ≠ []) (hn : Named w a) (hh : a.how = .outer) :
    ∃ out rows, merge w a = .ok out ∧ IsMerged w.inv w.cat a rows out ∧
      IsOuter (keyTuples w.inv a.left a.leftOn) (keyTuples w.inv a.right a.rightOn) (rowKeys w.inv w.isnull a.left a.leftOn)
        (rowKeys w.inv w.isnull a.right a.rightOn) rows (tupleNull w.isnull) := by
  obtain ⟨rows, hr, ho⟩ := outer_rows w hu a
  have hs : ∀ i k, (some i, some k) ∈ rows → ∃ t, (lk w a)[i]? = some (some t) ∧ (rk w a)[k]? = some (some t) := by
    intro i k hp
    obtain ⟨ks, _, _, rfl⟩ := ho
    obtain ⟨t, _, e⟩ := List.mem_map.1 hp
    split at e
    · cases e
    · injection e with e1 e2
      exact ⟨t, (first_key _ _ _ e1).2, (first_key _ _ _ e2).2⟩
  obtain ⟨out, h1, h2⟩ := merge_of_rows w hord a ha hnr hon hn rows (by rw [hh]; exact hr) (by intro h; rw [hh] at h; cases h) hs
  exact ⟨out, rows, h1, h2, ho⟩

theorem matching_self {K : Type} [DecidableEq K] (keys : List (Option K)) (t : K) (h : some t ∈ keys) : (first keys (some t)).isSome := by
  obtain ⟨i, hi⟩ := List.mem_iff_getElem?.1 h
  have : i ∈ matching keys (some t) := (mem_matching keys (some t) i).mpr ⟨t, rfl, hi⟩
  unfold first
  cases hm : matching keys (some t) with
  | nil => rw [hm] at this; cases this
  | cons x xs => rfl

/-- **C107** what `merge(how='inner')` does: one row for every left row that has a partner, in order, but with the values of the *first*
left row that has its key. -/
theorem merge_inner_exact (w : World V) (hord : ∀ l, (w.ord l).Perm l) (a : Args V) (ha : a.Checked) (hnr : a.requireMatch = false)
    (hon : a.leftOn ≠ []) (hn : Named w a) (hh : a.how = .inner) :
    ∃ out, merge w a = .ok out ∧ IsMerged w.inv w.cat a
      (innerExact (rowKeys w.inv w.isnull a.left a.leftOn) (rowKeys w.inv w.isnull a.right a.rightOn)) out := by
  have key : ∀ k, (first (rk w a) k).isSome → k ≠ none := by
    rintro k h rfl
    simp [first, matching] at h
  refine merge_of_rows w hord a ha hnr hon hn _ ?_ ?_ ?_
  · rw [hh]; exact inner_rows w a
  · intro _ p hp
    unfold innerExact at hp
    obtain ⟨k, hk, rfl⟩ := List.mem_map.1 hp
    obtain ⟨h1, h2⟩ := List.mem_filter.1 hk
    obtain ⟨t, rfl⟩ := Option.ne_none_iff_exists'.1 (key k h2)
    exact matching_self _ _ h1
  · intro i k hp
    unfold innerExact at hp
    obtain ⟨k', hk, e⟩ := List.mem_map.1 hp
    injection e with e1 e2
    obtain ⟨h1, h2⟩ := first_key _ _ _ e1
    obtain ⟨h3, h4⟩ := first_key _ _ _ e2
    obtain ⟨t, rfl⟩ := Option.ne_none_iff_exists'.1 h1
    exact ⟨t, h2, h4⟩

/-- the first row of a key that is not repeated is its only row -/
theorem first_unique {K : Type} [DecidableEq K] (keys : List (Option K)) (hr : ¬ RepeatedKey keys) (i : Nat) (t : K)
    (h : keys[i]? = some (some t)) : first keys (some t) = some i := by
  have hs := matching_self keys t (List.mem_of_getElem? h)
  obtain ⟨j, hj⟩ := Option.isSome_iff_exists.1 hs
  rw [hj]
  have h2 := (first_key _ _ _ hj).2
  rcases Nat.lt_trichotomy i j with hlt | rfl | hlt
  · exact absurd ⟨i, j, t, hlt, h, h2⟩ hr
  · rfl
  · exact absurd ⟨j, i, t, hlt, h2, h⟩ hr

theorem innerExact_eq {K : Type} [DecidableEq K] (lk rk : List (Option K)) (hr : ¬ RepeatedKey lk) : innerExact lk rk = innerRows lk rk := by
  unfold innerExact innerRows leftRows
  have e : lk = (List.range lk.length).map fun (i : Nat) => lk.getD i none := by
    have := map_range_getD lk none id
    rw [List.map_id] at this
    exact this.symm
  conv => lhs; arg 2; rw [e]
  rw [List.filter_map, List.map_map, List.filter_map]
  refine List.map_congr_left fun i hi => ?_
  obtain ⟨_, hs⟩ := List.mem_filter.1 hi
  simp only [Function.comp_apply] at hs ⊢
  cases hk : lk.getD i none with
  | none => rw [hk] at hs; simp [first, matching] at hs
  | some t => rw [first_unique lk hr i t (getD_key hk)]

/-- **C107** `merge(how='inner')`: if no key is repeated on the left, the result is the Dataset of every left row that has a partner, in
order, with the first right row that has its key. Missing: repeated keys on the left. -/
theorem merge_inner_partial (w : World V) (hord : ∀ l, (w.ord l).Perm l) (a : Args V) (ha : a.Checked) (hnr : a.requireMatch = false)
    (hon : a.leftOn ≠ []) (hn : Named w a) (hh : a.how = .inner) (hr : ¬ RepeatedKey (rowKeys w.inv w.isnull a.left a.leftOn)) :
    ∃ out, merge w a = .ok out ∧ IsMerged w.inv w.cat a
      (innerRows (rowKeys w.inv w.isnull a.left a.leftOn) (rowKeys w.inv w.isnull a.right a.rightOn)) out := by
  rw [← innerExact_eq _ _ hr]
  exact merge_inner_exact w hord a ha hnr hon hn hh

/-- **C108** different numbers of key columns on the two sides are refused. -/
theorem merge_key_count (w : World V) (a : Args V) (h : a.leftOn.length ≠ a.rightOn.length) : ∃ e, merge w a = .error e := by
  unfold merge
  split
  · exact ⟨_, rfl⟩
  · split
    · exact ⟨_, rfl⟩
    · exact ⟨_, rfl⟩

/-- **C108** no key columns are refused. -/
theorem merge_no_keys (w : World V) (a : Args V) (h : a.leftOn = []) : ∃ e, merge w a = .error e := by
  unfold merge
  split
  · exact ⟨_, rfl⟩
  · split
    · exact ⟨_, rfl⟩
    · split
      · exact ⟨_, rfl⟩
      · exact ⟨_, rfl⟩

/-- **C108** a column that a side does not have is refused. -/
theorem merge_missing (w : World V) (a : Args V) (c : Name)
    (h : (c ∈ a.leftOn ∨ c ∈ a.selL) ∧ c ∉ a.left.cols.keys ∨ (c ∈ a.rightOn ∨ c ∈ a.selR) ∧ c ∉ a.right.cols.keys) :
    ∃ e, merge w a = .error e := by
  have no : ∀ (ds : DS V) (l : List Name), c ∈ l → c ∉ ds.cols.keys → present ds l = false := by
    intro ds l h1 h2
    unfold present
    rw [List.all_eq_false]
    exact ⟨c, h1, fun hh => h2 ((Dict.has_iff _ _).mp hh)⟩
  unfold merge
  rw [if_pos]
  · exact ⟨_, rfl⟩
  · rcases h with ⟨h1 | h1, h2⟩ | ⟨h1 | h1, h2⟩ <;> simp [no _ _ h1 h2]

/-- **C108** an indicator name that is also the name of a column of the result is refused. -/
theorem merge_indicator_collision (w : World V) (hord : ∀ l, (w.ord l).Perm l) (a : Args V) (n : Name) (hn : a.indicator.name = some n)
    (hc : common a.leftOn a.rightOn n ∨
      (∃ c ∈ a.selL, ¬ common a.leftOn a.rightOn c ∧ n = outName a.leftOn a.rightOn a.selL a.selR (sufL a.suffixes) c) ∨
      (∃ c ∈ a.selR, ¬ common a.leftOn a.rightOn c ∧ n = outName a.leftOn a.rightOn a.selL a.selR (sufR a.suffixes) c)) :
    ∃ e, merge w a = .error e := by
  unfold merge
  split
  · exact ⟨_, rfl⟩
  split
  · exact ⟨_, rfl⟩
  rename_i m hm
  have hnames := merge_names_correct hord hm
  split
  · exact ⟨_, rfl⟩
  split
  · exact ⟨_, rfl⟩
  dsimp only
  split
  · exact ⟨_, rfl⟩
  rename_i out hout
  exfalso
  unfold finish at hout
  dsimp only at hout
  split at hout
  · cases hout
  rw [hn] at hout
  dsimp only at hout
  rw [hnames.newL, hnames.newR, addCols_eq, addCols_eq, foldl_setAll] at hout
  rw [if_pos] at hout
  · cases hout
  rw [Dict.has_iff, keys_setAll, keys_setAll, keys_setAll]
  rcases hc with h | ⟨c, h1, h2, h3⟩ | ⟨c, h1, h2, h3⟩
  · refine Or.inr (Or.inr (Or.inl ?_))
    rw [List.map_map, List.mem_map]
    exact ⟨n, (hnames.inter n).mpr h, rfl⟩
  · right; left
    rw [List.map_map, List.mem_map]
    exact ⟨c, (hnames.oldL c).mpr ⟨h1, h2⟩, by rw [h3, ← outName_norm (norm_sufL a.suffixes)]; rfl⟩
  · left
    rw [List.map_map, List.mem_map]
    exact ⟨c, (hnames.oldR c).mpr ⟨h1, h2⟩, by rw [h3, ← outName_norm (norm_sufR a.suffixes)]; rfl⟩

/-- **C108** a name of both sides that is no common key, without suffixes to tell the two apart, is refused. -/
theorem merge_overlap (w : World V) (a : Args V) (hord : ∀ l, (w.ord l).Perm l)
    (hs : (sufL a.suffixes).getD [] = [] ∧ (sufR a.suffixes).getD [] = []) (c : Name) (h1 : c ∈ a.selL) (h2 : c ∈ a.selR)
    (h3 : ¬ common a.leftOn a.rightOn c) : ∃ e, merge w a = .error e := by
  unfold merge
  split
  · exact ⟨_, rfl⟩
  split
  · exact ⟨_, rfl⟩
  rename_i m hm
  exfalso
  have hs' : normSuffixes a.suffixes = none := by
    rcases hx : a.suffixes with _ | ⟨x, y⟩
    · rfl
    · rw [hx] at hs
      simp only [normSuffixes]
      rw [if_pos]
      exact hs
  rw [hs'] at hm
  unfold colnameMapping at hm
  dsimp only at hm
  rw [if_pos] at hm
  · cases hm
  rw [Bool.and_eq_true]
  refine ⟨?_, rfl⟩
  rw [Bool.not_eq_true', List.isEmpty_eq_false_iff]
  apply List.ne_nil_of_mem (a := c)
  rw [mem_setInter hord, mem_onlyCols hord, mem_onlyCols hord]
  exact ⟨⟨h1, h3⟩, h2, h3⟩

/-! ## examples -/

/-- the first place of every different key -/
def refUnique (ks : List (List V)) : List Nat := (List.range ks.length).filter fun (i : Nat) => !(ks.take i).contains (ks.getD i [])

theorem refUnique_mem (ks : List (List V)) (i : Nat) : i ∈ refUnique ks ↔ ∃ k, ks[i]? = some k ∧ k ∉ ks.take i := by
  unfold refUnique
  rw [List.mem_filter, List.mem_range]
  constructor
  · rintro ⟨h, h2⟩
    refine ⟨ks[i], List.getElem?_eq_getElem h, ?_⟩
    simpa [h] using h2
  · rintro ⟨k, h, h2⟩
    obtain ⟨hlt, rfl⟩ := List.getElem?_eq_some_iff.1 h
    refine ⟨hlt, ?_⟩
    simpa [hlt] using h2

theorem refUnique_ok : UniqueOK (refUnique (V := V)) where
  lt ks i hi := List.mem_range.1 (List.mem_filter.1 hi).1
  nodup ks := by
    rw [List.Nodup, List.pairwise_filterMap]
    have hp : (refUnique ks).Pairwise (· < ·) := List.pairwise_lt_range.filter _
    refine hp.imp_of_mem fun {i j} hi hj hlt k hk k' hk' e => ?_
    subst e
    obtain ⟨k2, h1, h2⟩ := (refUnique_mem ks j).1 hj
    rw [hk'] at h1
    obtain rfl := Option.some.inj h1
    refine h2 (List.mem_iff_getElem?.2 ⟨i, ?_⟩)
    rw [List.getElem?_take, if_pos hlt]
    exact hk
  all ks k hk := by
    obtain ⟨hlt, he⟩ := List.idxOf_lt_length_iff.2 hk |> fun h => (⟨h, List.getElem_idxOf h⟩ : ∃ h, ks[ks.idxOf k] = k)
    refine List.mem_filterMap.2 ⟨ks.idxOf k, (refUnique_mem ks _).2 ⟨k, ?_, ?_⟩, ?_⟩
    · rw [List.getElem?_eq_getElem hlt, he]
    · intro hm
      obtain ⟨m, hm1⟩ := List.mem_iff_getElem?.1 hm
      rw [List.getElem?_take] at hm1
      split at hm1
      · rename_i hlt2
        obtain ⟨hm2, hm3⟩ := List.getElem?_eq_some_iff.1 hm1
        have := List.not_of_lt_findIdx (p := (· == k)) hlt2
        simp [hm3] at this
      · cases hm1
    · rw [List.getElem?_eq_getElem hlt, he]

def exW : World Nat := { exWorld with unique32 := refUnique }

def exA (how : How) : Args Nat := { exArgs how with suffixes := some (some [], some ['_', 'y']) }

theorem exA_checked (how : How) : (exA how).Checked := by
  have h := exArgs_checked how
  refine ⟨h.left, h.right, h.leftOn, h.rightOn, h.selL, h.selR, h.len, h.paired, ?_⟩
  intro n hn
  have : n = "merge_indicator".toList := by simpa [exA, exArgs, Indicator.name] using hn.symm
  subst this
  cases how <;> decide

theorem exA_named (how : How) : Named exW (exA how) :=
  ⟨⟨[['v']], [['v']], [['v'], ['u']], [['v', '_', 'y'], ['u']], [['k']]⟩, by cases how <;> decide⟩

/-- `merge_left` and the others apply to this call -/
example : ∃ out, merge exW (exA .left) = .ok out ∧ IsMerged 0 exW.cat (exA .left)
    [(some 0, some 2), (some 1, none), (some 2, some 0), (some 3, some 2)] out :=
  merge_left exW (fun _ => List.Perm.refl _) (exA .left) (exA_checked _) rfl (by decide) (exA_named _) rfl

example : ∃ out, merge exW (exA .right) = .ok out ∧ IsMerged 0 exW.cat (exA .right)
    [(some 2, some 0), (none, some 1), (some 0, some 2)] out :=
  merge_right exW (fun _ => List.Perm.refl _) (exA .right) (exA_checked _) rfl (by decide) (exA_named _) rfl

example : ∃ out rows, merge exW (exA .outer) = .ok out ∧ IsMerged 0 exW.cat (exA .outer) rows out ∧
    IsOuter (keyTuples 0 exLeft [['k']]) (keyTuples 0 exRight [['k']]) (rowKeys 0 exW.isnull exLeft [['k']]) (rowKeys 0 exW.isnull exRight [['k']])
      rows (tupleNull exW.isnull) :=
  merge_outer exW (fun _ => List.Perm.refl _) refUnique_ok (exA .outer) (exA_checked _) rfl (by decide) (exA_named _) rfl

example : merge exW (exA .outer) = .ok ⟨4,
    [(['k'], [2, 0, 1, 5]), (['v'], [10, 0, 12, 0]), (['v', '_', 'y'], [22, 0, 20, 21]),
     (['u'], [32, 0, 30, 31]), ("merge_indicator".toList, [1003, 1000, 1003, 1002])]⟩ := by decide

/-- a merge of Datasets without repeated keys -/
def exU : Args Nat := { exA .inner with left := exRight, right := exLeft, suffixes := some (some ['_', 'x'], some ['_', 'y']) }

theorem exU_checked : exU.Checked := by
  have h := exA_checked .inner
  refine ⟨h.right, h.left, by decide, by decide, by decide, by decide, rfl, h.paired, ?_⟩
  intro n hn
  have : n = "merge_indicator".toList := by simpa [exU, exA, exArgs, Indicator.name] using hn.symm
  subst this
  decide

example : ∃ out, merge exW exU = .ok out ∧ IsMerged 0 exW.cat exU [(some 0, some 2), (some 2, some 0)] out := by
  refine merge_inner_partial exW (fun _ => List.Perm.refl _) exU exU_checked rfl (by decide)
    ⟨⟨[['v'], ['u']], [['v', '_', 'x'], ['u']], [['v']], [['v', '_', 'y']], [['k']]⟩, by decide⟩ rfl ?_
  have e : rowKeys exW.inv exW.isnull exU.left exU.leftOn = [some [1], some [5], some [2]] := by decide
  rw [e]
  rintro ⟨i, j, k, hlt, h1, h2⟩
  match i, j with
  | 0, 1 => simp at h1 h2; simp [← h1] at h2
  | 0, 2 => simp at h1 h2; simp [← h1] at h2
  | 1, 2 => simp at h1 h2; simp [← h1] at h2
  | 0, n + 3 => simp at h2
  | 1, n + 3 => simp at h2
  | 2, n + 3 => simp at h2
  | n + 3, m => simp at h1
  | 0, 0 => omega
  | 1, 0 => omega
  | 1, 1 => omega
  | 2, 0 => omega
  | 2, 1 => omega
  | 2, 2 => omega

/-- **C107** Two left rows have the same key and both have a partner: the inner merge has two rows, but both with the data of the first of
them; the data of the second are not in the result. -/
theorem merge_inner_counterexample :
    ∃ a : Args Nat, a.Checked ∧ a.how = .inner ∧ a.left.cols.get ['v'] = some [10, 20] ∧
      ∃ out, merge exW a = .ok out ∧ out.nrows = 2 ∧ out.cols.get ['v'] = some [10, 10] ∧
        ¬ IsMerged exW.inv exW.cat a
          (innerRows (rowKeys exW.inv exW.isnull a.left a.leftOn) (rowKeys exW.inv exW.isnull a.right a.rightOn)) out := by
  refine ⟨{ left := ⟨2, [(['k'], [1, 1]), (['v'], [10, 20])]⟩, right := ⟨1, [(['k'], [1]), (['u'], [5])]⟩, leftOn := [['k']], rightOn := [['k']], how := .inner, suffixes := none }, ?_, rfl, by decide,
    ⟨2, [(['k'], [1, 1]), (['v'], [10, 10]), (['u'], [5, 5])]⟩, by decide, rfl, by decide, ?_⟩
  · refine ⟨⟨by simp, by decide⟩, ⟨by simp, by decide⟩, by decide, by decide, by decide, by decide, rfl, ?_, ?_⟩
    · intro c hc
      have : c = ['k'] := by simpa [common] using hc
      subst this
      simp
    · intro n hn; cases hn
  · intro h
    have := h.left ['v'] (by decide) (by simp [common])
    revert this
    decide

/-- **C106** A left row whose key is null: its key is among the keys of the outer merge, but the row it gets there has no data. -/
theorem merge_outer_null_counterexample :
    ∃ a : Args Nat, a.how = .outer ∧ a.left.cols.get ['v'] = some [10] ∧
      ∃ out, merge exW a = .ok out ∧ out.nrows = 2 ∧ out.cols.get ['v'] = some [0, 0] := by
  refine ⟨{ left := ⟨1, [(['k'], [0]), (['v'], [10])]⟩, right := ⟨1, [(['k'], [1]), (['u'], [5])]⟩, leftOn := [['k']], rightOn := [['k']], how := .outer, suffixes := none }, rfl, by decide,
    ⟨2, [(['k'], [0, 1]), (['v'], [0, 0]), (['u'], [0, 5])]⟩, by decide, rfl, by decide⟩

end Verif.OldMerge
