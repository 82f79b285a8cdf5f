import Verif.PDs.Lemmas
/-! # Names of partitions -/
namespace Verif.PDs
open Verif.Items (Name Dict)

theorem toDigits_inj {m n : Nat} (h : Nat.toDigits 10 m = Nat.toDigits 10 n) : m = n := by
  have := congrArg (fun l => Nat.ofDigitChars 10 l 0) h
  simpa using this

theorem autoNames_length (n : Nat) : (autoNames n).length = n := by simp [autoNames]

theorem autoNames_nodup (n : Nat) : (autoNames n).Nodup := by
  refine List.Nodup.map ?_ List.nodup_range
  intro a b h
  exact toDigits_inj (List.cons.inj h).2

theorem padded_length (fs : List Name) : (padded fs).length = fs.length := by simp [padded]

theorem manyNames_ok (fs ps : List Name) (h : manyNames fs = some ps) : ps.length = fs.length ∧ ps.Nodup := by
  unfold manyNames at h
  have hl := padded_length fs
  cases hp : padded fs with
  | nil => rw [hp] at h; cases h
  | cons r0 rs =>
    rw [hp] at h hl
    simp only at h
    split at h
    · split at h
      · rename_i _ hn
        cases h
        exact ⟨by rw [List.length_map, hl], hn⟩
      · cases h
    · cases h

/-- As many names as files, all different. -/
theorem fileNames_ok (fs : List Name) : (fileNames fs).length = fs.length ∧ (fileNames fs).Nodup := by
  match fs with
  | [] => exact ⟨rfl, by decide⟩
  | [f] =>
    simp only [fileNames]
    cases singleName f with
    | none => exact ⟨rfl, autoNames_nodup 1⟩
    | some n => exact ⟨rfl, by simp⟩
  | f :: g :: fs =>
    simp only [fileNames]
    cases h : manyNames (f :: g :: fs) with
    | none => exact ⟨autoNames_length _, autoNames_nodup _⟩
    | some ps => exact manyNames_ok _ _ h

/-! ## Names found in the file names -/

theorem foldl_max_const (l : List Nat) (w a : Nat) (h : ∀ x ∈ l, x = w) (ha : a ≤ w) (hne : l ≠ []) :
    l.foldl max a = w := by
  cases l with
  | nil => exact absurd rfl hne
  | cons x l =>
    rw [List.foldl_cons, h x (by simp), Nat.max_eq_right ha]
    have : ∀ y ∈ l, y = w := fun y hy => h y (by simp [hy])
    clear h hne
    induction l with
    | nil => rfl
    | cons y l ih =>
      rw [List.foldl_cons, this y (by simp), Nat.max_self]
      exact ih fun z hz => this z (by simp [hz])

theorem padded_const (fs : List Name) (w : Nat) (h : ∀ f ∈ fs, f.length = w) (hw : 1 ≤ w) (hne : fs ≠ []) :
    padded fs = fs.map List.reverse := by
  unfold padded
  have : (fs.map List.length).foldl max 1 = w :=
    foldl_max_const _ w 1 (by simpa using h) hw (by simpa using hne)
  rw [this]
  refine List.map_congr_left fun f hf => ?_
  rw [h f hf, Nat.sub_self]
  simp

theorem scan_in (m : List Bool) (b : Bool) (start dflt : Nat) (hs : start < m.length) :
    start ≤ scan m b start dflt ∧ scan m b start dflt < m.length ∧
      (m[scan m b start dflt]? = some b ∨ ∀ j, start ≤ j → m[j]? ≠ some b) ∧
      (∀ j, start ≤ j → m[j]? = some b → scan m b start dflt ≤ j) := by
  unfold scan
  rw [if_neg (by omega)]
  cases hf : (List.range' start (m.length - start)).find? fun i => m[i]? == some b with
  | none =>
    have hn : ∀ j, start ≤ j → m[j]? ≠ some b := by
      intro j hj he
      have hlt : j < m.length := (List.getElem?_eq_some_iff.1 he).1
      rw [List.find?_eq_none] at hf
      have := hf j (by rw [List.mem_range'_1]; omega)
      simp [he] at this
    simp only [Option.getD_none]
    exact ⟨by omega, by omega, Or.inr hn, fun j hj he => absurd he (hn j hj)⟩
  | some k =>
    have h1 := List.find?_some hf
    have h2 := List.mem_of_find?_eq_some hf
    rw [List.mem_range'_1] at h2
    simp only [Option.getD_some]
    refine ⟨h2.1, by omega, Or.inl (by simpa using h1), ?_⟩
    intro j hj he
    by_contra hlt
    have hlt : j < k := by omega
    rw [List.find?_eq_some_iff_getElem] at hf
    obtain ⟨_, i, hi, hk, hmin⟩ := hf
    rw [List.getElem_range'] at hk
    have hjm : j < m.length := (List.getElem?_eq_some_iff.1 he).1
    have := hmin (j - start) (by omega)
    rw [List.getElem_range'] at this
    rw [show start + 1 * (j - start) = j by omega, he] at this
    simp at this

theorem extendDown_eq (r0 : Name) (S n : Nat) (h : S ≤ n)
    (hd : ∀ j, S ≤ j → j < n → (r0[j]?.map digitLike).getD false = true)
    (hs : S = 0 ∨ (r0[S - 1]?.map digitLike).getD false = false) : extendDown r0 n = S := by
  induction n with
  | zero => have : S = 0 := by omega
            subst this; rfl
  | succ n ih =>
    by_cases he : S = n + 1
    · subst he
      rcases hs with hs | hs
      · omega
      · rw [Nat.add_sub_cancel] at hs
        rw [extendDown, hs]; rfl
    · rw [extendDown, hd n (by omega) (by omega), if_pos rfl]
      exact ih (by omega) fun j h1 h2 => hd j h1 (by omega)

theorem takeWhile_append_stop {α : Type} (p : α → Bool) (a b : List α) (h : ∀ x ∈ a, p x = true)
    (hb : (b.head?.map p).getD false = false) : (a ++ b).takeWhile p = a := by
  induction a with
  | nil =>
    cases b with
    | nil => rfl
    | cons x b =>
      have : p x = false := by simpa using hb
      simp [this]
  | cons x a ih =>
    rw [List.cons_append, List.takeWhile_cons_of_pos (h x (by simp)), ih fun y hy => h y (by simp [hy])]

theorem get3_lo {α : Type} (a b c : List α) (j : Nat) (h : j < a.length) : (a ++ (b ++ c))[j]? = a[j]? :=
  List.getElem?_append_left h

theorem get3_mid {α : Type} (a b c : List α) (j : Nat) (h : j < b.length) :
    (a ++ (b ++ c))[a.length + j]? = b[j]? := by
  rw [List.getElem?_append_right (by omega), Nat.add_sub_cancel_left, List.getElem?_append_left h]

theorem get3_hi {α : Type} (a b c : List α) (j : Nat) (h : a.length + b.length ≤ j) :
    (a ++ (b ++ c))[j]? = c[j - a.length - b.length]? := by
  rw [List.getElem?_append_right (by omega), List.getElem?_append_right (by omega)]

theorem digitLike_of_isDigit {c : Char} (h : c.isDigit = true) : digitLike c = true := by
  simp only [Char.isDigit, Bool.and_eq_true, decide_eq_true_eq] at h
  simp only [digitLike, Bool.and_eq_true, decide_eq_true_eq]
  have h1 : (48 : Nat) ≤ c.val.toNat := by exact_mod_cast h.1
  have h2 : c.val.toNat ≤ (57 : Nat) := by exact_mod_cast h.2
  have h3 : c.toNat = c.val.toNat := rfl
  omega

/-- Files that differ in a number of fixed width, such as a date, give partitions named by
that number. -/
theorem fileNames_number (pre suf : Name) (ds : List Name) (m : Nat) (h2 : 2 ≤ ds.length) (hn : ds.Nodup)
    (hm : ∀ d ∈ ds, d.length = m) (hd : ∀ d ∈ ds, ∀ c ∈ d, c.isDigit = true)
    (hpre : ∀ c, pre.getLast? = some c → ¬ (48 ≤ c.toNat ∧ c.toNat ≤ 58))
    (hsuf : ∀ c, suf.head? = some c → ¬ (48 ≤ c.toNat ∧ c.toNat ≤ 58)) :
    fileNames (ds.map fun d => pre ++ d ++ suf) = ds := by
  match ds, h2 with
  | d0 :: d1 :: ds, _ =>
  have hne : d0 ≠ d1 := by rw [List.nodup_cons] at hn; exact fun e => hn.1 (e ▸ by simp)
  have hm0 : d0.length = m := hm d0 (by simp)
  have hm1 : d1.length = m := hm d1 (by simp)
  have hmpos : 0 < m := by
    rcases Nat.eq_zero_or_pos m with h | h
    · rw [h, List.length_eq_zero_iff] at hm0 hm1
      exact absurd (hm0.trans hm1.symm) hne
    · exact h
  generalize hall : d0 :: d1 :: ds = l at *
  have hlne : l ≠ [] := by rw [← hall]; simp
  have hpad : padded (l.map fun d => pre ++ d ++ suf) = l.map fun d => suf.reverse ++ (d.reverse ++ pre.reverse) := by
    rw [padded_const _ (pre.length + m + suf.length) ?_ (by omega) (by simpa using hlne), List.map_map]
    · refine List.map_congr_left fun d _ => ?_
      simp
    · intro f hf
      obtain ⟨d, hd', rfl⟩ := List.mem_map.1 hf
      simp [hm d hd']
      omega
  have key : manyNames (l.map fun d => pre ++ d ++ suf) = some l := by
    unfold manyNames
    rw [hpad]
    conv => lhs; rw [← hall]
    simp only [List.map_cons]
    generalize hr0 : suf.reverse ++ (d0.reverse ++ pre.reverse) = r0
    generalize hrs : (suf.reverse ++ (d1.reverse ++ pre.reverse)) :: ds.map (fun d => suf.reverse ++ (d.reverse ++ pre.reverse)) = rs
    have hrows : r0 :: rs = l.map fun d => suf.reverse ++ (d.reverse ++ pre.reverse) := by
      rw [← hall, ← hr0, ← hrs]; simp
    have hw : r0.length = suf.length + (m + pre.length) := by rw [← hr0]; simp [hm0]
    generalize hmk : diffMask r0 rs = mk
    have hmlen : mk.length = suf.length + (m + pre.length) := by rw [← hmk, diffMask, List.length_map, List.length_range, hw]
    have hmget : ∀ j, j < r0.length → mk[j]? = some (rs.any fun r => r[j]? != r0[j]?) := by
      intro j hj
      rw [← hmk, diffMask, List.getElem?_map, List.getElem?_range hj]; rfl
    have hsame : ∀ j, j < r0.length → (j < suf.length ∨ suf.length + m ≤ j) → mk[j]? = some false := by
      intro j hj hc
      rw [hmget j hj, Option.some.injEq, List.any_eq_false]
      intro r hr
      have : r ∈ l.map fun d => suf.reverse ++ (d.reverse ++ pre.reverse) := hrows ▸ List.mem_cons_of_mem _ hr
      obtain ⟨d, hd', rfl⟩ := List.mem_map.1 this
      have hdm : d.reverse.length = m := by rw [List.length_reverse, hm d hd']
      have hdm0 : d0.reverse.length = m := by rw [List.length_reverse, hm0]
      rw [← hr0]
      rcases hc with hc | hc
      · rw [get3_lo _ _ _ _ (by simpa using hc), get3_lo _ _ _ _ (by simpa using hc)]
        simp
      · rw [get3_hi _ _ _ _ (by rw [hdm, List.length_reverse]; exact hc),
          get3_hi _ _ _ _ (by rw [hdm0, List.length_reverse]; exact hc), hdm, hdm0]
        simp
    have hdiff : ∃ j, suf.length ≤ j ∧ j < suf.length + m ∧ mk[j]? = some true := by
      by_contra hcon
      push Not at hcon
      apply hne
      have : d0.reverse = d1.reverse := by
        refine List.ext_getElem? fun j => ?_
        by_cases hj : j < m
        · have := hcon (suf.length + j) (by omega) (by omega)
          rw [hmget _ (by omega)] at this
          have h3 : (rs.any fun r => r[suf.length + j]? != r0[suf.length + j]?) = false := by
            cases hx : (rs.any fun r => r[suf.length + j]? != r0[suf.length + j]?)
            · rfl
            · rw [hx] at this; exact absurd rfl this
          rw [List.any_eq_false] at h3
          have h4 := h3 (suf.reverse ++ (d1.reverse ++ pre.reverse)) (by rw [← hrs]; simp)
          rw [← hr0] at h4
          have e1 : suf.length + j = suf.reverse.length + j := by rw [List.length_reverse]
          rw [e1, get3_mid _ _ _ _ (by rw [List.length_reverse, hm1]; exact hj),
            get3_mid _ _ _ _ (by rw [List.length_reverse, hm0]; exact hj)] at h4
          by_contra hne'
          exact h4 (by simpa using fun e => hne' e.symm)
        · rw [List.getElem?_eq_none (by simp; omega), List.getElem?_eq_none (by simp; omega)]
      exact List.reverse_injective this
    obtain ⟨j0, hj1, hj2, hj3⟩ := hdiff
    have hs := scan_in mk true 0 0 (by omega)
    generalize scan mk true 0 0 = s0 at hs
    have hs0t : mk[s0]? = some true := by
      rcases hs.2.2.1 with h | h
      · exact h
      · exact absurd hj3 (h j0 (Nat.zero_le _))
    have hs1 : suf.length ≤ s0 := by
      by_contra hc
      have := hsame s0 (by omega) (Or.inl (by omega))
      rw [hs0t] at this; cases this
    have hs2 : s0 < suf.length + m := by
      have := hs.2.2.2 j0 (Nat.zero_le _) hj3
      omega
    have hend : s0 ≤ scan mk false (s0 + 1) s0 ∧ scan mk false (s0 + 1) s0 ≤ suf.length + m := by
      by_cases hlt : s0 + 1 < mk.length
      · have he := scan_in mk false (s0 + 1) s0 hlt
        refine ⟨by omega, ?_⟩
        by_cases hp : 0 < pre.length
        · exact he.2.2.2 (suf.length + m) (by omega) (hsame _ (by omega) (Or.inr (le_refl _)))
        · omega
      · have : scan mk false (s0 + 1) s0 = s0 := by rw [scan, if_pos (by omega)]
        omega
    generalize scan mk false (s0 + 1) s0 = e0 at hend
    have hdig : ∀ j, suf.length ≤ j → j < suf.length + m → (r0[j]?.map digitLike).getD false = true := by
      intro j h1 h2
      rw [← hr0, List.getElem?_append_right (by simpa using h1), List.getElem?_append_left (by simp; omega),
        List.getElem?_eq_getElem (by simp; omega)]
      simp only [Option.map_some, Option.getD_some]
      refine digitLike_of_isDigit (hd d0 (by rw [← hall]; simp) _ ?_)
      exact List.mem_reverse.1 (List.getElem_mem _)
    have hnd : ∀ c : Char, ¬ (48 ≤ c.toNat ∧ c.toNat ≤ 58) → digitLike c = false := by
      intro c hc
      rw [Bool.eq_false_iff]
      intro h
      simp only [digitLike, Bool.and_eq_true, decide_eq_true_eq] at h
      exact hc h
    have hdown : extendDown r0 s0 = suf.length := by
      refine extendDown_eq r0 suf.length s0 hs1 (fun j h1 h2 => hdig j h1 (by omega)) ?_
      cases suf with
      | nil => exact Or.inl rfl
      | cons c suf =>
        right
        have : r0[(c :: suf).length - 1]? = some c := by
          rw [← hr0]; simp
        rw [this]
        exact hnd c (hsuf c rfl)
    have hup : extendUp r0 e0 = suf.length + m := by
      unfold extendUp
      have : r0.drop e0 = d0.reverse.drop (e0 - suf.length) ++ pre.reverse := by
        rw [← hr0, List.drop_append, List.drop_eq_nil_of_le (by simp; omega), List.nil_append, List.length_reverse,
          List.drop_append]
        have : e0 - suf.length - d0.reverse.length = 0 := by simp; omega
        rw [this, List.drop_zero]
      rw [this, takeWhile_append_stop]
      · simp only [List.length_drop, List.length_reverse, hm0]; omega
      · intro c hc
        exact digitLike_of_isDigit (hd d0 (by rw [← hall]; simp) c (List.mem_reverse.1 (List.mem_of_mem_drop hc)))
      · rw [List.head?_reverse]
        cases hx : pre.getLast? with
        | none => rfl
        | some c => exact hnd c (hpre c hx)
    rw [hdown, hup, hdig suf.length (le_refl _) (by omega), hdig (suf.length + m - 1) (by omega) (by omega), if_pos]
    · have hcut : (r0 :: rs).map (cut suf.length (suf.length + m)) = l := by
        rw [hrows, List.map_map]
        conv => rhs; rw [← List.map_id l]
        refine List.map_congr_left fun d hd' => ?_
        simp only [Function.comp, cut, id]
        rw [Nat.add_sub_cancel_left, List.drop_append_of_le_length (by simp),
          List.drop_eq_nil_of_le (by simp), List.nil_append, List.take_append_of_le_length (by simp [hm d hd']),
          List.take_of_length_le (by simp [hm d hd']), List.reverse_reverse]
        cases d with
        | nil => have := hm [] hd'; simp at this; omega
        | cons c d =>
          rw [List.dropWhile_cons_of_neg]
          have := hd _ hd' c (by simp)
          intro e
          rw [decide_eq_true_eq] at e
          rw [e] at this
          exact absurd this (by decide)
      rw [← hrs, List.map_cons, List.map_cons] at hcut
      rw [hcut, if_pos hn]
    · simp [hmpos]
  have : fileNames (l.map fun d => pre ++ d ++ suf) = (manyNames (l.map fun d => pre ++ d ++ suf)).getD
      (autoNames (l.map fun d => pre ++ d ++ suf).length) := by
    rw [← hall]; rfl
  rw [this, key]
  rfl

example : fileNames ["d/20190204.sds".toList, "d/20190205.sds".toList, "d/20200101.sds".toList]
    = ["20190204".toList, "20190205".toList, "20200101".toList] :=
  fileNames_number "d/".toList ".sds".toList ["20190204".toList, "20190205".toList, "20200101".toList] 8 (by decide)
    (by decide) (by decide) (by decide) (by intro c h; revert h; simp; rintro rfl; decide)
    (by intro c h; revert h; simp; rintro rfl; decide)

/-- The name of a single file that begins with a number, for example a date, is cut down to
the last digit. -/
theorem fileNames_single_counterexample : fileNames ["20190204.sds".toList] = ["4".toList] := by
  decide +kernel

/-- With something else in front of it, the last number of a single file is its name. -/
theorem fileNames_single (pre d suf : Name) (hd : d ≠ []) (hdig : ∀ c ∈ d, c.isDigit = true)
    (hpre : ∃ c, pre.getLast? = some c ∧ c.isDigit = false) (hsuf : ∀ c ∈ suf, c.isDigit = false) :
    fileNames [pre ++ d ++ suf] = [d] := by
  obtain ⟨c, hc, hcd⟩ := hpre
  have hrest : (pre ++ d ++ suf).reverse.dropWhile (fun c => !c.isDigit) = d.reverse ++ pre.reverse := by
    have hs : suf.reverse.dropWhile (fun c => !c.isDigit) = [] := by
      generalize hsr : suf.reverse = sr
      have : ∀ c ∈ sr, c.isDigit = false := fun c hc => hsuf c (List.mem_reverse.1 (hsr ▸ hc))
      clear hsr
      induction sr with
      | nil => rfl
      | cons x sr ih =>
        rw [List.dropWhile_cons_of_pos (by simp [this x (by simp)])]
        exact ih fun c hc => this c (by simp [hc])
    rw [List.reverse_append, List.reverse_append, List.dropWhile_append, hs]
    · simp only [List.isEmpty_nil, if_true]
      cases hx : d.reverse with
      | nil => exact absurd (List.reverse_eq_nil_iff.1 hx) hd
      | cons x xs =>
        have : x.isDigit = true := hdig x (List.mem_reverse.1 (hx ▸ by simp))
        rw [List.cons_append, List.dropWhile_cons_of_neg (by simp [this])]
  have hnotall : (d.reverse ++ pre.reverse).all Char.isDigit = false := by
    rw [List.all_eq_false]
    exact ⟨c, List.mem_append_right _ (List.mem_reverse.2 (List.mem_of_getLast? hc)), by simp [hcd]⟩
  have htake : (d.reverse ++ pre.reverse).takeWhile Char.isDigit = d.reverse := by
    refine takeWhile_append_stop _ _ _ (fun x hx => hdig x (List.mem_reverse.1 hx)) ?_
    rw [List.head?_reverse, hc]
    simpa using hcd
  have : singleName (pre ++ d ++ suf) = some d := by
    unfold singleName
    simp only [hrest]
    cases hx : d.reverse ++ pre.reverse with
    | nil => simp at hx; exact absurd hx.1 hd
    | cons x xs =>
      rw [hx] at hnotall htake
      simp only [hnotall, htake, List.reverse_reverse]
      rfl
  simp only [fileNames, this]

example : fileNames ["d/20190204.sds".toList] = ["20190204".toList] :=
  fileNames_single "d/".toList "20190204".toList ".sds".toList (by decide) (by decide) ⟨'/', by decide, by decide⟩ (by decide)

end Verif.PDs
