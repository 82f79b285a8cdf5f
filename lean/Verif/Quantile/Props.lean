import Verif.Quantile.Model
import Mathlib.Tactic.Linarith
import Mathlib.Tactic.Positivity
import Mathlib.Tactic.FieldSimp
import Mathlib.Tactic.Ring
/-!
# C35: quantiles ignore invalid entries only
-/
namespace Verif.Quantile

/-! ## Specification -/

/-- the valid entries -/
def valids (inv : Int) (arr : List Int) : List Int := arr.filter (· ≠ inv)

/-- `x` is the quantile `p` of the entries `v`: with the entries in ascending order it is the value at index
`p * (length - 1)` of the piecewise linear function through them. -/
def IsQuantile (v : List Int) (p x : Rat) : Prop :=
  ∃ (s : List Int) (k : Nat) (a b : Int), s.Perm v ∧ s.Pairwise (· ≤ ·) ∧ s[k]? = some a ∧
    (k : Rat) ≤ p * ((v.length : Rat) - 1) ∧ p * ((v.length : Rat) - 1) < k + 1 ∧
    (s[k + 1]? = some b ∨ (s.length = k + 1 ∧ b = a)) ∧
    x = a + (p * ((v.length : Rat) - 1) - k) * (b - a)

/-- the sentinel is on its side of all values of the type -/
def SentinelOk (k : Kind) (inv : Int) (arr : List Int) : Prop :=
  match k with
  | .signed => ∀ x ∈ arr, inv ≤ x
  | .unsigned => ∀ x ∈ arr, x ≤ inv

/-! ## Sorting puts the sentinels on one side -/

theorem sorted_perm (l : List Int) : (sorted l).Perm l := List.perm_insertionSort _ l

theorem sorted_pairwise (l : List Int) : (sorted l).Pairwise (· ≤ ·) := List.pairwise_insertionSort (· ≤ ·) l

theorem sorted_length (l : List Int) : (sorted l).length = l.length := (sorted_perm l).length_eq

theorem eq_sorted {s l : List Int} (hp : s.Perm l) (hs : s.Pairwise (· ≤ ·)) : sorted l = s :=
  ((sorted_perm l).trans hp.symm).eq_of_pairwise' (sorted_pairwise l) hs

theorem cvalid_eq (inv : Int) (arr : List Int) : cvalid inv arr = (valids inv arr).length := rfl

theorem split_perm (inv : Int) (arr : List Int) :
    (List.replicate (arr.length - (valids inv arr).length) inv ++ sorted (valids inv arr)).Perm arr := by
  have h1 : (arr.filter (fun x => ! decide (x ≠ inv))) = List.replicate (arr.length - (valids inv arr).length) inv := by
    have hl := List.length_eq_length_filter_add (l := arr) (fun x => decide (x ≠ inv))
    rw [List.eq_replicate_iff]
    refine ⟨?_, ?_⟩
    · unfold valids; omega
    · intro b hb
      have := List.mem_filter.1 hb
      simpa using this.2
  rw [← h1]
  refine ((sorted_perm _).append_left _).trans ?_
  refine List.perm_append_comm.trans ?_
  unfold valids
  exact List.filter_append_perm (fun x => decide (x ≠ inv)) arr

theorem sorted_signed {inv : Int} {arr : List Int} (h : SentinelOk .signed inv arr) :
    sorted arr = List.replicate (arr.length - (valids inv arr).length) inv ++ sorted (valids inv arr) := by
  refine eq_sorted (split_perm inv arr) ?_
  rw [List.pairwise_append]
  refine ⟨List.pairwise_replicate.2 (Or.inr (le_refl _)), sorted_pairwise _, ?_⟩
  intro a ha b hb
  rw [List.mem_replicate] at ha
  have : b ∈ arr := (List.mem_filter.1 ((sorted_perm _).mem_iff.1 hb)).1
  rw [ha.2]; exact h b this

theorem sorted_unsigned {inv : Int} {arr : List Int} (h : SentinelOk .unsigned inv arr) :
    sorted arr = sorted (valids inv arr) ++ List.replicate (arr.length - (valids inv arr).length) inv := by
  refine eq_sorted (List.perm_append_comm.trans (split_perm inv arr)) ?_
  rw [List.pairwise_append]
  refine ⟨sorted_pairwise _, List.pairwise_replicate.2 (Or.inr (le_refl _)), ?_⟩
  intro b hb a ha
  rw [List.mem_replicate] at ha
  have : b ∈ arr := (List.mem_filter.1 ((sorted_perm _).mem_iff.1 hb)).1
  rw [ha.2]; exact h b this

theorem valids_le (inv : Int) (arr : List Int) : (valids inv arr).length ≤ arr.length := List.length_filter_le _ _

theorem valids_all {inv : Int} {arr : List Int} (h : (valids inv arr).length = arr.length) : valids inv arr = arr :=
  List.Sublist.eq_of_length (List.filter_sublist) h

/-- the slice of `describe_helper` is the sorted valid entries -/
theorem describeSlice_eq {k : Kind} {inv : Int} {arr : List Int} (h : SentinelOk k inv arr) :
    describeSlice k inv arr = sorted (valids inv arr) := by
  unfold describeSlice
  rw [cvalid_eq]
  by_cases hc : (valids inv arr).length = arr.length
  · rw [if_pos hc, valids_all hc]
  · rw [if_neg hc]
    cases k with
    | signed =>
      dsimp only
      rw [sorted_signed h, List.drop_left' (by simp)]
    | unsigned =>
      dsimp only
      rw [sorted_unsigned h, List.take_left' (sorted_length _)]

/-- the slice of `quantile` loses the largest valid entry of a signed column with invalid entries -/
theorem validSlice_eq {k : Kind} {inv : Int} {arr : List Int} (h : SentinelOk k inv arr) :
    validSlice k inv arr =
      if k = .signed ∧ inv ∈ arr then (sorted (valids inv arr)).dropLast else sorted (valids inv arr) := by
  have hmem : inv ∈ arr ↔ (valids inv arr).length ≠ arr.length := by
    constructor
    · intro hm hc
      have h1 := valids_all hc
      rw [← h1] at hm
      have := List.mem_filter.1 hm
      simp at this
    · intro hc
      by_contra hm
      apply hc
      unfold valids
      rw [List.filter_eq_self.2]
      intro a ha
      simp only [ne_eq, decide_not, Bool.not_eq_eq_eq_not, Bool.not_true, decide_eq_false_iff_not]
      rintro rfl
      exact hm ha
  unfold validSlice
  rw [cvalid_eq]
  by_cases hc : (valids inv arr).length = arr.length
  · rw [if_pos hc, if_neg (by rw [hmem]; simp [hc]), valids_all hc]
  · rw [if_neg hc]
    cases k with
    | signed =>
      dsimp only
      rw [if_pos ⟨rfl, hmem.2 hc⟩, sorted_signed h]
      have hle := valids_le inv arr
      generalize hd : arr.length - (valids inv arr).length = d
      rw [List.drop_take, List.drop_left' (by simp), List.dropLast_eq_take, sorted_length]
      congr 1
      omega
    | unsigned =>
      dsimp only
      rw [sorted_unsigned h, List.take_left' (sorted_length _)]
      simp

/-! ## Interpolation -/

/-- `interpolate` on sorted data inside the range is the quantile -/
theorem interpolate_spec (s : List Int) (fi : Rat) (h0 : 0 ≤ fi) (h1 : fi ≤ (s.length : Rat) - 1) :
    ∃ (k : Nat) (a b : Int), s[k]? = some a ∧ (k : Rat) ≤ fi ∧ fi < k + 1 ∧ (s[k + 1]? = some b ∨ (s.length = k + 1 ∧ b = a)) ∧
      interpolate s fi = .ok (some (a + (fi - k) * (b - a)), (k : Int)) := by
  have hf0 : 0 ≤ fi.floor := by
    have : (0 : Rat) ≤ fi := h0
    exact Rat.le_floor_iff.2 (by simpa using this)
  obtain ⟨k, hk⟩ := Int.eq_ofNat_of_zero_le hf0
  have hle : (k : Rat) ≤ fi := by
    have := Rat.floor_le fi
    rw [hk] at this
    simpa using this
  have hlt : fi < k + 1 := by
    have := Rat.lt_floor_add_one fi
    rw [hk] at this
    simpa using this
  have hklen : k < s.length := by
    have : (k : Rat) < (s.length : Rat) := by linarith
    exact_mod_cast this
  refine ⟨k, s[k], if h : k + 1 < s.length then s[k + 1] else s[k], List.getElem?_eq_getElem hklen, hle, hlt, ?_, ?_⟩
  · by_cases h : k + 1 < s.length
    · left; rw [dif_pos h]; exact List.getElem?_eq_getElem h
    · right; rw [dif_neg h]; exact ⟨by omega, rfl⟩
  · unfold interpolate
    dsimp only
    rw [if_neg (by linarith), if_neg (by linarith), hk]
    have hkt : ((k : Int)).toNat = k := rfl
    have hck : ((k : Int) : Rat) = (k : Rat) := by simp
    rw [hkt, hck]
    by_cases hfr : fi - (k : Rat) = 0
    · rw [if_pos hfr, List.getElem?_eq_getElem hklen, hfr]
      simp
    · rw [if_neg hfr]
      have hk1 : k + 1 < s.length := by
        have h2 : (k : Rat) < fi := lt_of_le_of_ne hle (fun hx => hfr (by rw [hx]; ring))
        have h3 : (k : Rat) + 1 < (s.length : Rat) := by linarith
        exact_mod_cast h3
      rw [List.getElem?_eq_getElem hklen, List.getElem?_eq_getElem hk1, dif_pos hk1]
      dsimp only
      congr 3
      ring

theorem interpolate_past (s : List Int) (fi : Rat) (h0 : 0 ≤ fi) (h1 : (s.length : Rat) - 1 < fi) :
    interpolate s fi = .ok (none, fi.floor) := by
  unfold interpolate
  dsimp only
  rw [if_neg (by linarith), if_pos h1]

/-- quantiles are unique -/
theorem isQuantile_unique {v : List Int} {p x y : Rat} (hx : IsQuantile v p x) (hy : IsQuantile v p y) : x = y := by
  obtain ⟨s, k, a, b, hp, hs, ha, h1, h2, hb, rfl⟩ := hx
  obtain ⟨s', k', a', b', hp', hs', ha', h1', h2', hb', rfl⟩ := hy
  have hss : s = s' := (hp.trans hp'.symm).eq_of_pairwise' hs hs'
  subst hss
  have hkk : k = k' := by
    have e1 : (k : Rat) < k' + 1 := by linarith
    have e2 : (k' : Rat) < k + 1 := by linarith
    have e1' : k < k' + 1 := by exact_mod_cast e1
    have e2' : k' < k + 1 := by exact_mod_cast e2
    omega
  subst hkk
  rw [ha] at ha'
  obtain rfl := Option.some.inj ha'
  have hbb : b = b' := by
    rcases hb with hb | ⟨hl, rfl⟩
    · rcases hb' with hb' | ⟨hl', rfl⟩
      · rw [hb] at hb'; exact Option.some.inj hb'
      · obtain ⟨h, _⟩ := List.getElem?_eq_some_iff.1 hb
        omega
    · rcases hb' with hb' | ⟨hl', rfl⟩
      · obtain ⟨h, _⟩ := List.getElem?_eq_some_iff.1 hb'
        omega
      · rfl
  rw [hbb]

theorem mapM_ok_get {α β : Type} {l : List α} {f : α → Except String β} {r : List β} (h : l.mapM f = .ok r) :
    r.length = l.length ∧ ∀ (i : Nat) (a : α), l[i]? = some a → ∃ b, f a = .ok b ∧ r[i]? = some b := by
  induction l generalizing r with
  | nil =>
    simp only [List.mapM_nil, pure, Except.pure, Except.ok.injEq] at h
    subst h; simp
  | cons a l ih =>
    rw [List.mapM_cons] at h
    cases ha : f a with
    | error e => rw [ha] at h; simp [bind, Except.bind] at h
    | ok b =>
      rw [ha] at h
      cases hl : l.mapM f with
      | error e => rw [hl] at h; simp [bind, Except.bind] at h
      | ok r' =>
        rw [hl] at h
        simp only [bind, Except.bind, pure, Except.pure, Except.ok.injEq] at h
        subst h
        obtain ⟨h1, h2⟩ := ih hl
        refine ⟨by simp [h1], ?_⟩
        intro i x hi
        cases i with
        | zero => simp at hi; subst hi; exact ⟨b, ha, by simp⟩
        | succ i => simp at hi; simpa using h2 i x hi

theorem mapM_ok_of {α β : Type} {l : List α} {f : α → Except String β} (h : ∀ a ∈ l, ∃ b, f a = .ok b) : ∃ r, l.mapM f = .ok r := by
  induction l with
  | nil => exact ⟨[], rfl⟩
  | cons a l ih =>
    obtain ⟨b, hb⟩ := h a (by simp)
    obtain ⟨r, hr⟩ := ih fun x hx => h x (by simp [hx])
    exact ⟨b :: r, by rw [List.mapM_cons, hb, hr]; rfl⟩

/-! ## C35 -/

/-- the index of a fraction is inside the range -/
theorem frac_range {v : List Int} (hv : v ≠ []) {p : Rat} (hp : 0 ≤ p ∧ p ≤ 1) :
    0 ≤ p * ((v.length : Rat) - 1) ∧ p * ((v.length : Rat) - 1) ≤ (v.length : Rat) - 1 := by
  have h1 : (1 : Rat) ≤ v.length := by
    have : 1 ≤ v.length := List.length_pos_iff.2 hv
    exact_mod_cast this
  have h2 : 0 ≤ (v.length : Rat) - 1 := by linarith
  exact ⟨mul_nonneg hp.1 h2, by nlinarith [hp.2]⟩

/-- `interpolate` on the sorted valid entries is the quantile -/
theorem interpolate_sorted {v : List Int} (hv : v ≠ []) {p : Rat} (hp : 0 ≤ p ∧ p ≤ 1) :
    ∃ x w, interpolate (sorted v) (p * ((v.length : Rat) - 1)) = .ok (some x, w) ∧ IsQuantile v p x := by
  obtain ⟨h1, h2⟩ := frac_range hv hp
  obtain ⟨k, a, b, ha, hk1, hk2, hb, he⟩ := interpolate_spec (sorted v) _ h1 (by rw [sorted_length]; exact h2)
  exact ⟨_, _, he, sorted v, k, a, b, sorted_perm v, sorted_pairwise v, ha, hk1, hk2, hb, rfl⟩

/-- **C35** What `quantile` returns: without valid entries NaN; the quantile of the valid entries, except for a signed column
with invalid entries, where the fractions above `(m - 2) / (m - 1)` (m valid entries) give NaN because the largest valid
entry is dropped. -/
theorem quantile_exact (k : Kind) (inv : Int) (arr : List Int) (q : List Rat) (hs : SentinelOk k inv arr)
    (hq : ∀ p ∈ q, 0 ≤ p ∧ p ≤ 1) :
    ∃ r, quantile k inv arr q = .ok r ∧ r.length = q.length ∧
      ∀ (i : Nat) (p : Rat), q[i]? = some p →
        if valids inv arr = [] ∨ (k = .signed ∧ inv ∈ arr ∧ ((valids inv arr).length : Rat) - 2 < p * (((valids inv arr).length : Rat) - 1))
        then r[i]? = some none
        else ∃ x, r[i]? = some (some x) ∧ IsQuantile (valids inv arr) p x := by
  unfold quantile
  by_cases hv : valids inv arr = []
  · rw [if_pos (by rw [cvalid_eq, hv]; rfl)]
    refine ⟨_, rfl, by simp, fun i p hp => ?_⟩
    rw [if_pos (Or.inl hv), List.getElem?_map, hp]; rfl
  · have hlen : 1 ≤ (valids inv arr).length := List.length_pos_iff.2 hv
    rw [if_neg (by rw [cvalid_eq]; omega), cvalid_eq, validSlice_eq hs]
    have hok : ∀ p ∈ q, ∃ b, valueAt (if k = .signed ∧ inv ∈ arr then (sorted (valids inv arr)).dropLast else sorted (valids inv arr))
        (p * (((valids inv arr).length : Rat) - 1)) = .ok b ∧
        (if valids inv arr = [] ∨ (k = .signed ∧ inv ∈ arr ∧ ((valids inv arr).length : Rat) - 2 < p * (((valids inv arr).length : Rat) - 1))
        then b = none else ∃ x, b = some x ∧ IsQuantile (valids inv arr) p x) := by
      intro p hp
      obtain ⟨h0, h1⟩ := frac_range hv (hq p hp)
      by_cases hsi : k = .signed ∧ inv ∈ arr
      · rw [if_pos hsi]
        have hdl : (((sorted (valids inv arr)).dropLast.length : Nat) : Rat) = ((valids inv arr).length : Rat) - 1 := by
          rw [List.length_dropLast, sorted_length]
          push_cast [hlen]; ring
        by_cases hbig : ((valids inv arr).length : Rat) - 2 < p * (((valids inv arr).length : Rat) - 1)
        · unfold valueAt
          rw [interpolate_past _ _ h0 (by rw [hdl]; linarith)]
          refine ⟨none, rfl, ?_⟩
          rw [if_pos (Or.inr ⟨hsi.1, hsi.2, hbig⟩)]
        · obtain ⟨j, a, b, ha, hj1, hj2, hb, he⟩ := interpolate_spec (sorted (valids inv arr)).dropLast _ h0 (by rw [hdl]; linarith)
          unfold valueAt
          rw [he]
          refine ⟨_, rfl, ?_⟩
          rw [if_neg (by rintro (hx | hx); exacts [hv hx, hbig hx.2.2])]
          refine ⟨_, rfl, ?_⟩
          -- the neighbours in the list with the largest entry are the same
          have hpre : ∀ (i : Nat) (y : Int), (sorted (valids inv arr)).dropLast[i]? = some y → (sorted (valids inv arr))[i]? = some y := by
            intro i y hy
            obtain ⟨hi, hy'⟩ := List.getElem?_eq_some_iff.1 hy
            rw [List.getElem_dropLast] at hy'
            exact List.getElem?_eq_some_iff.2 ⟨_, hy'⟩
          rcases hb with hb | ⟨hl, rfl⟩
          · exact ⟨sorted (valids inv arr), j, a, b, sorted_perm _, sorted_pairwise _, hpre j a ha, hj1, hj2, Or.inl (hpre _ b hb), rfl⟩
          · -- the index is exactly the last one: the weight of the next entry is zero
            have hj : p * (((valids inv arr).length : Rat) - 1) = j := by
              have : (j : Rat) + 1 = ((valids inv arr).length : Rat) - 1 := by rw [← hdl, hl]; push_cast; ring
              linarith
            have hjl : j + 1 < (sorted (valids inv arr)).length := by
              rw [List.length_dropLast] at hl; omega
            refine ⟨sorted (valids inv arr), j, b, (sorted (valids inv arr))[j + 1], sorted_perm _, sorted_pairwise _, hpre j b ha, hj1, hj2,
              Or.inl (List.getElem?_eq_getElem hjl), ?_⟩
            rw [hj]; ring
      · rw [if_neg hsi]
        obtain ⟨x, w, he, hx⟩ := interpolate_sorted hv (hq p hp)
        unfold valueAt
        rw [he]
        refine ⟨some x, rfl, ?_⟩
        rw [if_neg (by rintro (hx | hx); exacts [hv hx, hsi ⟨hx.1, hx.2.1⟩])]
        exact ⟨x, rfl, hx⟩
    obtain ⟨r, hr⟩ := mapM_ok_of fun p hp => (hok p hp).imp fun b hb => hb.1
    obtain ⟨hl, hg⟩ := mapM_ok_get hr
    refine ⟨r, hr, hl, fun i p hp => ?_⟩
    obtain ⟨b, hb1, hb2⟩ := hg i p hp
    obtain ⟨b', hb1', hb3⟩ := hok p (List.mem_of_getElem? hp)
    rw [hb1'] at hb1
    obtain rfl : b' = b := Except.ok.inj hb1
    rw [hb2]
    split_ifs at hb3 ⊢ with hc
    · rw [hb3]
    · obtain ⟨x, rfl, hx⟩ := hb3
      exact ⟨x, rfl, hx⟩

/-- **C35** For unsigned columns, and columns without invalid entries, `quantile` returns the quantiles of the valid entries. -/
theorem quantile_correct_partial (k : Kind) (inv : Int) (arr : List Int) (q : List Rat) (hs : SentinelOk k inv arr)
    (hq : ∀ p ∈ q, 0 ≤ p ∧ p ≤ 1) (hv : valids inv arr ≠ []) (hk : k = .unsigned ∨ inv ∉ arr) :
    ∃ r, quantile k inv arr q = .ok r ∧ r.length = q.length ∧
      ∀ (i : Nat) (p : Rat), q[i]? = some p → ∃ x, r[i]? = some (some x) ∧ IsQuantile (valids inv arr) p x := by
  obtain ⟨r, h1, h2, h3⟩ := quantile_exact k inv arr q hs hq
  refine ⟨r, h1, h2, fun i p hp => ?_⟩
  have := h3 i p hp
  rw [if_neg] at this
  · exact this
  · rintro (hx | ⟨rfl, hx, _⟩)
    · exact hv hx
    · rcases hk with hk | hk
      · simp at hk
      · exact hk hx

/-- **C35** `describe` returns the counts, the mean, the smallest and largest valid entry, and the quantiles of the valid
entries, for signed and unsigned columns. -/
theorem describe_correct (k : Kind) (inv : Int) (arr : List Int) (q : List Rat) (hs : SentinelOk k inv arr)
    (hq : ∀ p ∈ q, 0 ≤ p ∧ p ≤ 1) (hv : valids inv arr ≠ []) :
    ∃ d, describe k inv arr q = .ok d ∧ d.count = arr.length ∧ d.valid = (valids inv arr).length ∧ d.nans = (arr.filter (· = inv)).length ∧
      d.mean = some (((valids inv arr).sum : Rat) / (valids inv arr).length) ∧
      (∃ lo ∈ valids inv arr, d.min = some (lo : Rat) ∧ ∀ x ∈ valids inv arr, lo ≤ x) ∧
      (∃ hi ∈ valids inv arr, d.max = some (hi : Rat) ∧ ∀ x ∈ valids inv arr, x ≤ hi) ∧
      d.quantiles.length = q.length ∧
      (∀ (i : Nat) (p : Rat), q[i]? = some p → ∃ x, d.quantiles[i]? = some (some x) ∧ IsQuantile (valids inv arr) p x) ∧
      ∃ (s mid : List Int), s.Perm (valids inv arr) ∧ s.Pairwise (· ≤ ·) ∧ mid ≠ [] ∧ d.meanm = some ((mid.sum : Rat) / mid.length) ∧
        ∃ (lo hi : Nat), mid = (s.take (hi + 1)).drop lo ∧ hi < s.length ∧
          (lo : Rat) ≤ 1 / 10 * (((valids inv arr).length : Rat) - 1) ∧ 1 / 10 * (((valids inv arr).length : Rat) - 1) < lo + 1 ∧
          9 / 10 * (((valids inv arr).length : Rat) - 1) ≤ hi ∧ (hi : Rat) < 9 / 10 * (((valids inv arr).length : Rat) - 1) + 1 := by
  have hlen : 1 ≤ (valids inv arr).length := List.length_pos_iff.2 hv
  have hqok : ∀ p ∈ q, ∃ b, valueAt (sorted (valids inv arr)) (p * (((valids inv arr).length : Rat) - 1)) = .ok b ∧ ∃ x, b = some x ∧ IsQuantile (valids inv arr) p x := by
    intro p hp
    obtain ⟨x, w, he, hx⟩ := interpolate_sorted hv (hq p hp)
    unfold valueAt
    rw [he]
    exact ⟨some x, rfl, x, rfl, hx⟩
  obtain ⟨r, hr⟩ := mapM_ok_of fun p hp => (hqok p hp).imp fun b hb => hb.1
  obtain ⟨hl, hg⟩ := mapM_ok_get hr
  have hsl := sorted_length (valids inv arr)
  obtain ⟨f10, f11⟩ := frac_range hv (p := 1 / 10) (by constructor <;> norm_num)
  obtain ⟨f90, f91⟩ := frac_range hv (p := 9 / 10) (by constructor <;> norm_num)
  obtain ⟨k1, a1, b1, ha1, hk11, hk12, hb1, he1⟩ := interpolate_spec (sorted (valids inv arr)) (1 / 10 * (((valids inv arr).length : Rat) - 1)) f10
    (by rw [hsl]; exact f11)
  obtain ⟨k9, a9, b9, ha9, hk91, hk92, hb9, he9⟩ := interpolate_spec (sorted (valids inv arr)) (9 / 10 * (((valids inv arr).length : Rat) - 1)) f90
    (by rw [hsl]; exact f91)
  have hfl : (9 / 10 * (((valids inv arr).length : Rat) - 1)).floor = (k9 : Int) := by
    refine le_antisymm ?_ ?_
    · have : (9 / 10 * (((valids inv arr).length : Rat) - 1)).floor < (k9 : Int) + 1 := by
        have h := Rat.floor_le (9 / 10 * (((valids inv arr).length : Rat) - 1))
        have : (((9 / 10 * (((valids inv arr).length : Rat) - 1)).floor : Int) : Rat) < (((k9 : Int) + 1 : Int) : Rat) := by push_cast; linarith
        exact_mod_cast this
      omega
    · exact Rat.le_floor_iff.2 (by exact_mod_cast hk91)
  -- upper index
  obtain ⟨hi, hhi1, hhi2, hhi3, hhi4⟩ : ∃ hi : Nat, hi < (valids inv arr).length ∧
      (if (if 9 / 10 * (((valids inv arr).length : Rat) - 1) - ((9 / 10 * (((valids inv arr).length : Rat) - 1)).floor : Rat) ≠ 0 then (k9 : Int) + 1 else (k9 : Int)) + 1
        > ((valids inv arr).length : Int) then ((valids inv arr).length : Int) else
        (if 9 / 10 * (((valids inv arr).length : Rat) - 1) - ((9 / 10 * (((valids inv arr).length : Rat) - 1)).floor : Rat) ≠ 0 then (k9 : Int) + 1 else (k9 : Int)) + 1).toNat = hi + 1 ∧
      9 / 10 * (((valids inv arr).length : Rat) - 1) ≤ hi ∧ (hi : Rat) < 9 / 10 * (((valids inv arr).length : Rat) - 1) + 1 := by
    rw [hfl]
    by_cases hfr : 9 / 10 * (((valids inv arr).length : Rat) - 1) - ((k9 : Int) : Rat) ≠ 0
    · simp only [if_pos hfr]
      have hlt : (k9 : Rat) < 9 / 10 * (((valids inv arr).length : Rat) - 1) :=
        lt_of_le_of_ne hk91 (fun hx => hfr (by rw [← hx]; push_cast; ring))
      have hk9 : k9 + 1 < (valids inv arr).length := by
        have : (k9 : Rat) + 1 < ((valids inv arr).length : Rat) := by linarith
        exact_mod_cast this
      refine ⟨k9 + 1, hk9, ?_, ?_, ?_⟩
      · rw [if_neg (by omega)]; omega
      · push_cast; linarith
      · push_cast; linarith
    · simp only [if_neg hfr]
      have hx : 9 / 10 * (((valids inv arr).length : Rat) - 1) = k9 := by
        have := not_not.1 hfr
        push_cast at this; linarith
      have hk9 : k9 < (valids inv arr).length := by
        have : (k9 : Rat) < ((valids inv arr).length : Rat) := by linarith
        exact_mod_cast this
      refine ⟨k9, hk9, ?_, by linarith, by linarith⟩
      rw [if_neg (by omega)]; omega
  have hk1hi : k1 ≤ hi := by
    have h1 : (1 : Rat) ≤ ((valids inv arr).length : Rat) := by exact_mod_cast hlen
    have : (k1 : Rat) < hi + 1 := by linarith
    have : k1 < hi + 1 := by exact_mod_cast this
    omega
  have hmidlen : (((sorted (valids inv arr)).take (hi + 1)).drop k1).length > 0 := by
    rw [List.length_drop, List.length_take, hsl]; omega
  refine ⟨⟨arr.length, (valids inv arr).length, arr.length - (valids inv arr).length, mean (sorted (valids inv arr)),
    ((sorted (valids inv arr)).head?).map fun x : Int => (x : Rat), r, ((sorted (valids inv arr)).getLast?).map fun x : Int => (x : Rat),
    mean (((sorted (valids inv arr)).take (hi + 1)).drop k1)⟩, ?_, rfl, rfl, ?_, ?_, ?_, ?_, hl, ?_, ?_⟩
  · unfold describe
    dsimp only
    rw [cvalid_eq, if_neg (by omega), describeSlice_eq hs, he1, he9, hr]
    dsimp only
    rw [hhi2]
    rw [if_pos (by simpa using hmidlen)]
    rfl
  · dsimp only
    have h := List.length_eq_length_filter_add (l := arr) (fun x => decide (x ≠ inv))
    have h2 : (fun x : Int => !decide (x ≠ inv)) = fun x => decide (x = inv) := by funext x; simp
    rw [h2] at h
    unfold valids
    omega
  · dsimp only
    unfold mean
    rw [if_neg (by rw [hsl]; omega), hsl, (sorted_perm _).sum_eq]
  · dsimp only
    have hne : sorted (valids inv arr) ≠ [] := List.ne_nil_of_length_pos (by omega)
    obtain ⟨a, t, hat⟩ := List.exists_cons_of_ne_nil hne
    have hsp := sorted_pairwise (valids inv arr)
    rw [hat] at hsp
    refine ⟨a, (sorted_perm _).mem_iff.1 (by rw [hat]; simp), by rw [hat]; rfl, fun x hx => ?_⟩
    have hx' := (sorted_perm (valids inv arr)).mem_iff.2 hx
    rw [hat] at hx'
    rcases List.mem_cons.1 hx' with rfl | hx'
    · exact le_refl _
    · exact (List.pairwise_cons.1 hsp).1 x hx'
  · dsimp only
    have hne : sorted (valids inv arr) ≠ [] := List.ne_nil_of_length_pos (by omega)
    have hdl := List.dropLast_append_getLast hne
    refine ⟨(sorted (valids inv arr)).getLast hne, (sorted_perm _).mem_iff.1 (List.getLast_mem hne), by rw [List.getLast?_eq_some_getLast hne]; rfl, fun x hx => ?_⟩
    have hx' := (sorted_perm (valids inv arr)).mem_iff.2 hx
    have hsp := sorted_pairwise (valids inv arr)
    rw [← hdl, List.pairwise_append] at hsp
    rw [← hdl] at hx'
    rcases List.mem_append.1 hx' with hx' | hx'
    · exact hsp.2.2 x hx' _ (by simp)
    · simp at hx'; rw [hx']
  · intro i p hp
    dsimp only
    obtain ⟨b, hb1, hb2⟩ := hg i p hp
    obtain ⟨b', hb1', x, hx1, hx2⟩ := hqok p (List.mem_of_getElem? hp)
    rw [hb1'] at hb1
    obtain rfl : b' = b := Except.ok.inj hb1
    exact ⟨x, by rw [hb2, hx1], hx2⟩
  · refine ⟨sorted (valids inv arr), _, sorted_perm _, sorted_pairwise _, ?_, ?_, k1, hi, rfl, by omega, hk11, hk12, hhi3, hhi4⟩
    · intro hx
      rw [hx] at hmidlen
      simp at hmidlen
    · dsimp only
      unfold mean
      rw [if_neg (by omega)]

/-! ## Examples and counterexamples -/

example : SentinelOk .signed (-128) [3, -128, 5, 1] := by unfold SentinelOk; decide
example : SentinelOk .unsigned 255 [3, 255, 5, 1] := by unfold SentinelOk; decide
example : valids (-128) [3, -128, 5, 1] = [3, 5, 1] := by decide

/-- The largest quantiles of a signed column with an invalid entry are NaN: of 1, 3, 5 the quantile 1 is 5 and the quantile 3/4
is 4. -/
theorem quantile_signed_counterexample :
    ∃ arr : List Int, arr = [3, -128, 5, 1] ∧ quantile .signed (-128) arr [1 / 2, 3 / 4, 1] = .ok [some 3, none, none] ∧
      IsQuantile (valids (-128) arr) 1 5 ∧ IsQuantile (valids (-128) arr) (3 / 4) 4 := by
  refine ⟨_, rfl, by decide +kernel, ⟨[1, 3, 5], 2, 5, 5, by decide, by decide, rfl, ?_, ?_, Or.inr ⟨rfl, rfl⟩, ?_⟩,
    ⟨[1, 3, 5], 1, 3, 5, by decide, by decide, rfl, ?_, ?_, Or.inl rfl, ?_⟩⟩ <;> decide +kernel

/-- With a single valid entry beside an invalid one even the median is NaN. -/
theorem quantile_single_counterexample : quantile .signed (-128) [7, -128] [1 / 2] = .ok [none] := by decide +kernel

end Verif.Quantile
