import Verif.Cum.Model
import Verif.Cum.Spec

namespace Verif.Cum
variable {α : Type}

/-- list form of the second loop -/
def scan2 (isInv : α → Bool) (better : α → α → Bool) : α → List α → List α
  | _, [] => []
  | r, v :: vs =>
    let r' := if !isInv v && better v r then v else r
    r' :: scan2 isInv better r' vs

/-- list form of the third loop -/
def scan3 (isInv : α → Bool) (better : α → α → Bool) : α → List α → List α
  | _, [] => []
  | r, v :: vs =>
    let r' := if isInv v || better v r then v else r
    r' :: scan3 isInv better r' vs

theorem set_append_head (p : List α) (g y : α) (gs : List α) :
    (p ++ g :: gs).set p.length y = (p ++ [y]) ++ gs := by
  simp [List.set_append]

theorem foldl_body2 (isInv : α → Bool) (better : α → α → Bool) (arr : List α) :
    ∀ (suf pre done garb : List α) (r : α), arr = pre ++ suf → done.length = pre.length →
      garb.length = suf.length →
      ((List.range' pre.length suf.length).foldl (body2 isInv better arr) (r, done ++ garb)).2
        = done ++ scan2 isInv better r suf
  | [], pre, done, garb, r, _, _, hg => by
    have : garb = [] := List.eq_nil_of_length_eq_zero (by simpa using hg)
    simp [scan2, this]
  | x :: xs, pre, done, garb, r, ha, hd, hg => by
    match garb, hg with
    | g :: gs, hg =>
    have hget : arr[pre.length]? = some x := by simp [ha]
    simp only [List.length_cons, List.range'_succ, List.foldl_cons, body2, hget, scan2]
    rw [← hd, set_append_head]
    have := foldl_body2 isInv better arr xs (pre ++ [x])
      (done ++ [if (!isInv x && better x r) = true then x else r]) gs
      (if (!isInv x && better x r) = true then x else r) (by simp [ha]) (by simp [hd])
      (by simpa using hg)
    simp only [List.length_append, List.length_cons, List.length_nil] at this
    rw [hd]
    simpa using this

theorem foldl_body3 (isInv : α → Bool) (better : α → α → Bool) (arr : List α) :
    ∀ (suf pre done garb : List α) (r : α), arr = pre ++ suf → done.length = pre.length →
      garb.length = suf.length →
      ((List.range' pre.length suf.length).foldl (body3 isInv better arr) (r, done ++ garb)).2
        = done ++ scan3 isInv better r suf
  | [], pre, done, garb, r, _, _, hg => by
    have : garb = [] := List.eq_nil_of_length_eq_zero (by simpa using hg)
    simp [scan3, this]
  | x :: xs, pre, done, garb, r, ha, hd, hg => by
    match garb, hg with
    | g :: gs, hg =>
    have hget : arr[pre.length]? = some x := by simp [ha]
    simp only [List.length_cons, List.range'_succ, List.foldl_cons, body3, hget, scan3]
    rw [← hd, set_append_head]
    have := foldl_body3 isInv better arr xs (pre ++ [x])
      (done ++ [if (isInv x || better x r) = true then x else r]) gs
      (if (isInv x || better x r) = true then x else r) (by simp [ha]) (by simp [hd])
      (by simpa using hg)
    simp only [List.length_append, List.length_cons, List.length_nil] at this
    rw [hd]
    simpa using this

/-- what `loop1` reaches -/
theorem loop1_spec (isInv : α → Bool) (arr : List α) :
    ∀ (suf pre garb : List α) (cur : Option (Nat × α)), arr = pre ++ suf →
      garb.length = suf.length →
      (∃ p x s g, suf = p ++ x :: s ∧ (∀ y ∈ p, isInv y = true) ∧ isInv x = false ∧
          g.length = s.length ∧
          loop1 isInv arr (List.range' pre.length suf.length) cur (pre ++ garb)
            = (some (pre.length + p.length, x), pre ++ p ++ x :: g)) ∨
      ((∀ y ∈ suf, isInv y = true) ∧
        loop1 isInv arr (List.range' pre.length suf.length) cur (pre ++ garb)
          = (match suf.getLast? with
              | none => cur
              | some x => some (pre.length + suf.length - 1, x), pre ++ suf))
  | [], pre, garb, cur, ha, hg => by
    have : garb = [] := List.eq_nil_of_length_eq_zero (by simpa using hg)
    right; simp [loop1, this]
  | x :: xs, pre, garb, cur, ha, hg => by
    match garb, hg with
    | g :: gs, hg =>
    have hget : arr[pre.length]? = some x := by simp [ha]
    simp only [List.length_cons, List.range'_succ, loop1, hget]
    rw [set_append_head]
    by_cases hx : isInv x = true
    · simp only [hx, if_true]
      have hrec := loop1_spec isInv arr xs (pre ++ [x]) gs (some (pre.length, x))
        (by simp [ha]) (by simpa using hg)
      simp only [List.length_append, List.length_cons, List.length_nil] at hrec
      rcases hrec with ⟨p, y, s, g', h1, h2, h3, h4, h5⟩ | ⟨h1, h2⟩
      · left
        refine ⟨x :: p, y, s, g', by simp [h1], ?_, h3, h4, ?_⟩
        · intro z hz; rcases List.mem_cons.mp hz with rfl | hz
          · exact hx
          · exact h2 z hz
        · have e : pre.length + (0 + 1) + p.length = pre.length + (p.length + 1) := by omega
          simp only [Nat.zero_add] at *
          rw [h5]; simp [Nat.add_comm, Nat.add_left_comm]
      · right
        refine ⟨?_, ?_⟩
        · intro z hz; rcases List.mem_cons.mp hz with rfl | hz
          · exact hx
          · exact h1 z hz
        · simp only [Nat.zero_add] at *
          rw [h2]
          cases xs with
          | nil => simp
          | cons b bs =>
            simp only [List.getLast?_cons_cons, List.append_assoc, List.cons_append,
              List.nil_append, List.length_cons]
            cases hgl : (b :: bs).getLast? with
            | none => simp at hgl
            | some w =>
              simp only
              congr 3
              omega
    · left
      exact ⟨[], x, xs, gs, by simp, by simp, by simpa using hx, by simpa using hg, by
        simp [hx]⟩

theorem kernel_skip_eq (isInv : α → Bool) (better : α → α → Bool) (ret0 arr : List α)
    (hr : ret0.length = arr.length) :
    (∃ p x s, arr = p ++ x :: s ∧ (∀ y ∈ p, isInv y = true) ∧ isInv x = false ∧
      kernel isInv better true ret0 arr = p ++ scan2 isInv better x (x :: s)) ∨
    ((∀ y ∈ arr, isInv y = true) ∧ kernel isInv better true ret0 arr = arr) := by
  cases arr with
  | nil =>
    right
    have : ret0 = [] := List.eq_nil_of_length_eq_zero (by simpa using hr)
    simp [kernel, this]
  | cons a as =>
    have hspec := loop1_spec isInv (a :: as) (a :: as) [] ret0 none rfl hr
    simp only [List.length_nil, List.nil_append, Nat.zero_add] at hspec
    rcases hspec with ⟨p, x, s, g, h1, h2, h3, h4, h5⟩ | ⟨h1, h2⟩
    · left
      refine ⟨p, x, s, h1, h2, h3, ?_⟩
      simp only [kernel, if_true]
      rw [List.range_eq_range', h5]
      simp only
      have hlen : (a :: as).length - p.length = (x :: s).length := by rw [h1]; simp
      rw [hlen]
      exact foldl_body2 isInv better (a :: as) (x :: s) p p (x :: g) x h1 rfl (by simp [h4])
    · right
      refine ⟨h1, ?_⟩
      simp only [kernel, if_true]
      rw [List.range_eq_range', h2]
      rcases List.eq_nil_or_concat (a :: as) with h | ⟨ini, z, hz⟩
      · simp at h
      · rw [List.concat_eq_append] at hz
        simp only [hz, List.getLast?_append, List.getLast?_singleton]
        simp only [Option.or, List.length_append, List.length_singleton, Nat.add_sub_cancel]
        have e : ini.length + 1 - ini.length = [z].length := by simp
        rw [e]
        have hzinv : isInv z = true := h1 z (by rw [hz]; simp)
        have := foldl_body2 isInv better (ini ++ [z]) [z] ini ini [z] z rfl rfl rfl
        rw [this]
        simp [scan2, hzinv]

theorem kernel_noskip_eq (isInv : α → Bool) (better : α → α → Bool) (ret0 : List α) (a : α)
    (as : List α) (hr : ret0.length = (a :: as).length) :
    kernel isInv better false ret0 (a :: as) = scan3 isInv better a (a :: as) := by
  simp only [kernel]
  have := foldl_body3 isInv better (a :: as) (a :: as) [] [] ret0 a rfl rfl hr
  rw [List.range_eq_range']
  simpa using this

theorem scan2_length (isInv : α → Bool) (better : α → α → Bool) :
    ∀ (xs : List α) (r : α), (scan2 isInv better r xs).length = xs.length
  | [], _ => rfl
  | x :: xs, r => by simp [scan2, scan2_length isInv better xs]

theorem scan3_length (isInv : α → Bool) (better : α → α → Bool) :
    ∀ (xs : List α) (r : α), (scan3 isInv better r xs).length = xs.length
  | [], _ => rfl
  | x :: xs, r => by simp [scan3, scan3_length isInv better xs]

/-- Strict order on the valid values. -/
structure StrictOn (isInv : α → Bool) (better : α → α → Bool) : Prop where
  irrefl : ∀ x, isInv x = false → better x x = false
  trans : ∀ x y z, isInv x = false → isInv y = false → isInv z = false →
    better x y = true → better y z = true → better x z = true

theorem scan2_get (isInv : α → Bool) (better : α → α → Bool) (ho : StrictOn isInv better) :
    ∀ (xs : List α) (r : α) (i : Nat), isInv r = false → i < xs.length →
      ∃ y, (scan2 isInv better r xs)[i]? = some y ∧ isInv y = false ∧
        (y = r ∨ ∃ j, j ≤ i ∧ xs[j]? = some y) ∧ (y = r ∨ better y r = true) ∧
        ∀ (k : Nat) (z : α), k ≤ i → xs[k]? = some z → isInv z = false → better z y = false
  | [], _, _, _, h => by simp at h
  | x :: xs, r, i, hr, hi => by
    simp only [scan2]
    generalize hq : (if (!isInv x && better x r) = true then x else r) = q
    have hqv : isInv q = false := by
      rw [← hq]; split
      · next h => simp at h; exact h.1
      · exact hr
    have f1 : q = r ∨ better q r = true := by
      rw [← hq]; split
      · next h => simp at h; exact .inr h.2
      · exact .inl rfl
    have f0 : q = r ∨ q = x := by
      rw [← hq]; split
      · exact .inr rfl
      · exact .inl rfl
    have f2 : isInv x = false → better x q = false := by
      intro hx
      rw [← hq]; split
      · exact ho.irrefl x hx
      · next h => simp [hx] at h; exact h
    cases i with
    | zero =>
      refine ⟨q, by simp, hqv, ?_, f1, ?_⟩
      · rcases f0 with h | h
        · exact .inl h
        · exact .inr ⟨0, Nat.le_refl _, by simp [h]⟩
      · intro k z hk hz hzv
        have : k = 0 := by omega
        subst this; simp at hz; subst hz
        exact f2 hzv
    | succ i =>
      obtain ⟨y, hy1, hy2, hy3, hy4, hy5⟩ := scan2_get isInv better ho xs q i hqv (by simpa using hi)
      refine ⟨y, by simpa using hy1, hy2, ?_, ?_, ?_⟩
      · rcases hy3 with rfl | ⟨j, hj, hjy⟩
        · rcases f0 with h | h
          · exact .inl h
          · exact .inr ⟨0, by omega, by simp [h]⟩
        · exact .inr ⟨j + 1, by omega, by simpa using hjy⟩
      · rcases hy4 with h | h
        · rw [h]; exact f1
        · rcases f1 with g | g
          · rw [g] at h; exact .inr h
          · exact .inr (ho.trans _ _ _ hy2 hqv hr h g)
      · intro k z hk hz hzv
        cases k with
        | zero =>
          simp at hz; subst hz
          cases hb : better x y with
          | false => rfl
          | true =>
            rcases hy4 with h | h
            · rw [h, f2 hzv] at hb; cases hb
            · have := ho.trans _ _ _ hzv hy2 hqv hb h
              rw [f2 hzv] at this; cases this
        | succ k => exact hy5 k z (by omega) (by simpa using hz) hzv

/-- `kernel` with `skipna=True` computes the running extremum of the valid values. -/
theorem kernel_skip_spec (isInv : α → Bool) (better : α → α → Bool) (ho : StrictOn isInv better)
    (ret0 arr : List α) (hr : ret0.length = arr.length) :
    RunningSkip isInv (fun a b => better a b = true) arr (kernel isInv better true ret0 arr) := by
  rcases kernel_skip_eq isInv better ret0 arr hr with ⟨p, x, s, h1, h2, h3, h4⟩ | ⟨h1, h2⟩
  · rw [h4]
    have pinv : ∀ (k : Nat) (z : α), k < p.length → arr[k]? = some z → isInv z = true := by
      intro k z hk hz
      rw [h1, List.getElem?_append_left hk] at hz
      exact h2 z (List.mem_of_getElem? hz)
    refine ⟨by simp [h1, scan2_length], ?_, ?_⟩
    · rintro i hi ⟨k, z, hk, hz, hzv⟩
      have hip : p.length ≤ i := by
        rcases Nat.lt_or_ge i p.length with h | h
        · rw [pinv k z (by omega) hz] at hzv; cases hzv
        · exact h
      obtain ⟨y, hy1, hy2, hy3, _, hy5⟩ := scan2_get isInv better ho (x :: s) x (i - p.length) h3
        (by rw [h1] at hi; simp at hi ⊢; omega)
      refine ⟨y, by rw [List.getElem?_append_right hip]; exact hy1, ?_, hy2, ?_⟩
      · rcases hy3 with rfl | ⟨j, hj, hjy⟩
        · exact ⟨p.length, hip, by simp [h1]⟩
        · refine ⟨p.length + j, by omega, ?_⟩
          rw [h1, List.getElem?_append_right (by omega)]
          simpa using hjy
      · intro k z hk hz hzv
        have hkp : p.length ≤ k := by
          rcases Nat.lt_or_ge k p.length with h | h
          · rw [pinv k z h hz] at hzv; cases hzv
          · exact h
        rw [h1, List.getElem?_append_right hkp] at hz
        have := hy5 (k - p.length) z (by omega) hz hzv
        simp [this]
    · intro i hi hns
      have hip : i < p.length := by
        rcases Nat.lt_or_ge i p.length with h | h
        · exact h
        · exact absurd ⟨p.length, x, h, by simp [h1], h3⟩ hns
      refine ⟨p[i], by rw [List.getElem?_append_left hip]; simp, ?_⟩
      exact h2 _ (List.getElem_mem hip)
  · rw [h2]
    refine ⟨rfl, ?_, ?_⟩
    · rintro i hi ⟨k, z, _, hz, hzv⟩
      rw [h1 z (List.mem_of_getElem? hz)] at hzv; cases hzv
    · intro i hi _
      exact ⟨arr[i], by simp, h1 _ (List.getElem_mem hi)⟩

/-- once the running value is invalid it stays so, if nothing is better than an invalid -/
theorem scan3_sticky (isInv : α → Bool) (better : α → α → Bool) :
    ∀ (xs : List α) (r : α), isInv r = true →
      (∀ x ∈ xs, ∀ v, isInv v = true → better x v = false) →
      ∀ (i : Nat), i < xs.length → ∃ y, (scan3 isInv better r xs)[i]? = some y ∧ isInv y = true
  | [], _, _, _, i, hi => by simp at hi
  | x :: xs, r, hr, hb, i, hi => by
    simp only [scan3]
    generalize hq : (if (isInv x || better x r) = true then x else r) = q
    have hqv : isInv q = true := by
      rw [← hq]; split
      · next h =>
        rw [hb x (by simp) r hr] at h; simpa using h
      · exact hr
    cases i with
    | zero => exact ⟨q, by simp, hqv⟩
    | succ i =>
      obtain ⟨y, h1, h2⟩ := scan3_sticky isInv better xs q hqv
        (fun x hx v hv => hb x (by simp [hx]) v hv) i (by simpa using hi)
      exact ⟨y, by simpa using h1, h2⟩

theorem scan3_sticky_at (isInv : α → Bool) (better : α → α → Bool) :
    ∀ (xs : List α) (r : α),
      (∀ x ∈ xs, ∀ v, isInv v = true → better x v = false) →
      ∀ (i k : Nat) (z : α), i < xs.length → k ≤ i → xs[k]? = some z → isInv z = true →
        ∃ y, (scan3 isInv better r xs)[i]? = some y ∧ isInv y = true
  | [], _, _, i, _, _, hi, _, _, _ => by simp at hi
  | x :: xs, r, hb, i, 0, z, hi, hk, hz, hzv => by
    simp at hz; subst hz
    have e : scan3 isInv better r (x :: xs) = scan3 isInv better x (x :: xs) := by
      simp [scan3, hzv]
    rw [e]
    exact scan3_sticky isInv better (x :: xs) x hzv hb i hi
  | x :: xs, r, hb, i, k + 1, z, hi, hk, hz, hzv => by
    simp only [scan3]
    cases i with
    | zero => omega
    | succ i =>
      obtain ⟨y, h1, h2⟩ := scan3_sticky_at isInv better xs _
        (fun x hx v hv => hb x (by simp [hx]) v hv) i k z (by simpa using hi) (by omega)
        (by simpa using hz) hzv
      exact ⟨y, by simpa using h1, h2⟩

/-- before the first invalid value the third loop behaves like the second -/
theorem scan3_eq_scan2 (isInv : α → Bool) (better : α → α → Bool) :
    ∀ (xs : List α) (r : α) (i : Nat), i < xs.length →
      (∀ (k : Nat) (z : α), k ≤ i → xs[k]? = some z → isInv z = false) →
      (scan3 isInv better r xs)[i]? = (scan2 isInv better r xs)[i]?
  | [], _, _, hi, _ => by simp at hi
  | x :: xs, r, i, hi, h => by
    have hx : isInv x = false := h 0 x (by omega) (by simp)
    simp only [scan3, scan2, hx]
    cases i with
    | zero => simp
    | succ i =>
      simpa using scan3_eq_scan2 isInv better xs _ i (by simpa using hi)
        (fun k z hk hz => h (k + 1) z (by omega) (by simpa using hz))

/-- `kernel` with `skipna=False` is sticky if no value is better than an invalid. -/
theorem kernel_noskip_spec (isInv : α → Bool) (better : α → α → Bool) (ho : StrictOn isInv better)
    (ret0 arr : List α) (hr : ret0.length = arr.length)
    (hb : ∀ x ∈ arr, ∀ v, isInv v = true → better x v = false) :
    RunningSticky isInv (fun a b => better a b = true) arr (kernel isInv better false ret0 arr) := by
  cases arr with
  | nil =>
    have : ret0 = [] := List.eq_nil_of_length_eq_zero (by simpa using hr)
    subst this
    exact ⟨rfl, fun i hi => by simp at hi, fun i hi => by simp at hi⟩
  | cons a as =>
    rw [kernel_noskip_eq isInv better ret0 a as hr]
    refine ⟨scan3_length .., ?_, ?_⟩
    · intro i hi hn
      have hval : ∀ (k : Nat) (z : α), k ≤ i → (a :: as)[k]? = some z → isInv z = false := by
        intro k z hk hz
        cases hv : isInv z with
        | false => rfl
        | true => exact absurd ⟨k, z, hk, hz, hv⟩ hn
      have ha : isInv a = false := hval 0 a (by omega) (by simp)
      obtain ⟨y, hy1, hy2, hy3, _, hy5⟩ := scan2_get isInv better ho (a :: as) a i ha hi
      refine ⟨y, ?_, ?_, hy2, ?_⟩
      · rw [scan3_eq_scan2 isInv better _ _ i hi hval]; exact hy1
      · rcases hy3 with rfl | h
        · exact ⟨0, by omega, by simp⟩
        · exact h
      · intro k z hk hz hzv; simp [hy5 k z hk hz hzv]
    · rintro i hi ⟨k, z, hk, hz, hzv⟩
      exact scan3_sticky_at isInv better (a :: as) a hb i k z hi hk hz hzv

end Verif.Cum
