import Verif.Bin.Spec
import Verif.Quantile.Props
import Mathlib.Data.List.Sort
import Mathlib.Tactic.Linarith
import Mathlib.Tactic.Ring
import Mathlib.Tactic.Positivity
import Mathlib.Tactic.FieldSimp

namespace Verif.Bin

/-! ## Order of floats -/

theorem Fl.le_trans {a b c : Fl} (h : a.le b = true) (h' : b.le c = true) : a.le c = true := by
  cases a <;> cases b <;> cases c <;> simp_all [Fl.le]
  exact h.trans h'

theorem Fl.le_self {a : Fl} (h : a ≠ .nan) : a.le a = true := by cases a <;> simp_all [Fl.le]

theorem Fl.le_antisymm {a b : Fl} (h : a.le b = true) (h' : b.le a = true) : a = b := by
  cases a <;> cases b <;> simp_all [Fl.le]
  exact _root_.le_antisymm h h'

theorem Fl.lt_iff {a b : Fl} : a.lt b = true ↔ a ≠ .nan ∧ b ≠ .nan ∧ b.le a = false := by
  cases a <;> cases b <;> simp [Fl.lt, Fl.le]

theorem Fl.le_notnan {a b : Fl} (h : a.le b = true) : a ≠ .nan ∧ b ≠ .nan := by
  cases a <;> cases b <;> simp_all [Fl.le]

theorem Fl.lt_le {a b : Fl} (h : a.lt b = true) : a.le b = true := by
  cases a <;> cases b <;> simp_all [Fl.le, Fl.lt]
  exact h.le

theorem Fl.le_of_not_lt {a b : Fl} (ha : a ≠ .nan) (hb : b ≠ .nan) (h : a.lt b = false) : b.le a = true := by
  cases a <;> cases b <;> simp_all [Fl.le, Fl.lt]

theorem Fl.lt_of_lt_le {a b c : Fl} (h : a.lt b = true) (h' : b.le c = true) : a.lt c = true := by
  cases a <;> cases b <;> cases c <;> simp_all [Fl.le, Fl.lt]
  exact h.trans_le h'

theorem Fl.lt_of_le_lt {a b c : Fl} (h : a.le b = true) (h' : b.lt c = true) : a.lt c = true := by
  cases a <;> cases b <;> cases c <;> simp_all [Fl.le, Fl.lt]
  exact h.trans_lt h'

theorem Fl.lt_self (a : Fl) : a.lt a = false := by cases a <;> simp [Fl.le, Fl.lt]

theorem Fl.not_lt_of_le {a b : Fl} (h : b.le a = true) : a.lt b = false := by
  cases a <;> cases b <;> simp_all [Fl.le, Fl.lt]

theorem leSort_antisymm {a b : Fl} (h : leSort a b) (h' : leSort b a) : a = b := by
  cases a <;> cases b <;> simp_all [leSort]
  exact _root_.le_antisymm h h'

/-! ## The sorted column -/

theorem mem_finites {x : List Fl} {q : Rat} : q ∈ finites x ↔ Fl.fin q ∈ x := by
  unfold finites
  rw [List.mem_filterMap]
  constructor
  · rintro ⟨a, ha, h⟩
    cases a <;> simp_all
  · intro h; exact ⟨_, h, rfl⟩

/-- the sorted column, in four parts -/
def canonical (x : List Fl) : List Fl :=
  List.replicate (ninfCount x) .ninf ++ ((List.insertionSort (· ≤ ·) (finites x)).map .fin ++
    (List.replicate (infCount x) .pinf ++ List.replicate (nanCount x) .nan))

theorem count_finites (x : List Fl) (q : Rat) : (finites x).count q = x.count (.fin q) := by
  induction x with
  | nil => rfl
  | cons a l ih =>
    cases a <;> simp_all [finites, List.count_cons]

theorem canonical_perm (x : List Fl) : (canonical x).Perm x := by
  rw [List.perm_iff_count]
  intro a
  unfold canonical
  simp only [List.count_append, List.count_replicate]
  cases a with
  | ninf =>
    have : ((List.insertionSort (· ≤ ·) (finites x)).map Fl.fin).count .ninf = 0 := by
      rw [List.count_eq_zero]; simp
    simp [this, ninfCount, List.count, BEq.beq]
  | fin q =>
    rw [List.count_map_of_injective _ _ (fun a b h => by injection h)]
    rw [(List.perm_insertionSort (· ≤ ·) (finites x)).count_eq, count_finites]
    simp
  | pinf =>
    have : ((List.insertionSort (· ≤ ·) (finites x)).map Fl.fin).count .pinf = 0 := by
      rw [List.count_eq_zero]; simp
    simp [this, infCount, List.count, BEq.beq]
  | nan =>
    have : ((List.insertionSort (· ≤ ·) (finites x)).map Fl.fin).count .nan = 0 := by
      rw [List.count_eq_zero]; simp
    simp [this, nanCount, List.count, BEq.beq]

theorem canonical_sorted (x : List Fl) : (canonical x).Pairwise leSort := by
  unfold canonical
  rw [List.pairwise_append, List.pairwise_append, List.pairwise_append]
  refine ⟨?_, ⟨?_, ⟨?_, ?_, ?_⟩, ?_⟩, ?_⟩
  · exact List.pairwise_replicate.2 (Or.inr trivial)
  · rw [List.pairwise_map]
    exact (List.pairwise_insertionSort (· ≤ ·) (finites x)).imp fun h => h
  · exact List.pairwise_replicate.2 (Or.inr trivial)
  · exact List.pairwise_replicate.2 (Or.inr trivial)
  · intro a _ b hb
    rw [List.eq_of_mem_replicate hb]; cases a <;> trivial
  · intro a ha b hb
    obtain ⟨q, -, rfl⟩ := List.mem_map.1 ha
    rcases List.mem_append.1 hb with h | h
    · rw [List.eq_of_mem_replicate h]; trivial
    · rw [List.eq_of_mem_replicate h]; trivial
  · intro a ha b _
    rw [List.eq_of_mem_replicate ha]; cases b <;> trivial

theorem length_split (x : List Fl) : x.length = ninfCount x + ((finites x).length + (infCount x + nanCount x)) := by
  have := (canonical_perm x).length_eq
  simp [canonical] at this
  omega

theorem dataLen_eq (x : List Fl) : dataLen x = (finites x).length := by
  have := length_split x
  unfold dataLen; omega

/-- rows in sorted order -/
theorem sortedRows {x : List Fl} {ls : List Nat} (h : IsLexsort x ls) :
    ls.map (fun (i : Nat) => x.getD i .nan) = canonical x := by
  obtain ⟨hp, hs⟩ := h
  refine List.Perm.eq_of_pairwise (fun a b _ _ => leSort_antisymm) ?_ (canonical_sorted x) ?_
  · rw [List.pairwise_map]
    refine hs.imp_of_mem ?_
    intro a b ha hb h
    have ha' : a < x.length := by simpa using hp.mem_iff.1 ha
    have hb' : b < x.length := by simpa using hp.mem_iff.1 hb
    apply h
    · simp [List.getD_eq_getElem?_getD, List.getElem?_eq_getElem ha']
    · simp [List.getD_eq_getElem?_getD, List.getElem?_eq_getElem hb']
  · refine (List.Perm.map _ hp).trans ?_
    refine List.Perm.trans ?_ (canonical_perm x).symm
    have : (List.range x.length).map (fun (i : Nat) => x.getD i .nan) = x := by
      apply List.ext_getElem
      · simp
      · intro i h1 h2
        simp [List.getD_eq_getElem?_getD, List.getElem?_eq_getElem h2]
    rw [this]

/-- the window is the finite values in order -/
theorem window_rows {x : List Fl} {ls : List Nat} (h : IsLexsort x ls) :
    (window x ls).map (fun (i : Nat) => x.getD i .nan) = (List.insertionSort (· ≤ ·) (finites x)).map .fin := by
  have hs := sortedRows h
  have hl := length_split x
  unfold window
  split
  · rw [List.map_drop, List.map_take, hs]
    unfold canonical
    have h1 : x.length - (nanCount x + infCount x) = ninfCount x + (finites x).length := by omega
    rw [h1, List.take_append, List.drop_append]
    simp
  · rename_i h0
    have e : canonical x = (List.insertionSort (· ≤ ·) (finites x)).map .fin := by
      unfold canonical
      have h1 : ninfCount x = 0 := by omega
      have h2 : infCount x = 0 := by omega
      have h3 : nanCount x = 0 := by omega
      simp [h1, h2, h3]
    rw [hs, e]

theorem window_mem {x : List Fl} {ls : List Nat} {i : Nat} (h : i ∈ window x ls) : i ∈ ls := by
  unfold window at h
  split at h
  · exact List.mem_of_mem_take (List.mem_of_mem_drop h)
  · exact h

theorem val_eq {x : List Fl} {ls : List Nat} (h : IsLexsort x ls) {k : Nat} {a : Rat}
    (hk : (List.insertionSort (· ≤ ·) (finites x))[k]? = some a) : val x (window x ls) (k : Int) = .ok (.fin a) := by
  have hw := window_rows h
  have hg : ((window x ls).map (fun (i : Nat) => x.getD i .nan))[k]? = some (.fin a) := by
    rw [hw]; simp [hk]
  rw [List.getElem?_map] at hg
  cases hi : (window x ls)[k]? with
  | none => rw [hi] at hg; cases hg
  | some i =>
    rw [hi] at hg
    simp only [Option.map_some, Option.some.injEq] at hg
    have him : i ∈ ls := window_mem (List.mem_of_getElem? hi)
    have hlt : i < x.length := by simpa using h.1.mem_iff.1 him
    unfold val
    have hn : Verif.Cat.npGet (window x ls) (k : Int) = some i := by
      unfold Verif.Cat.npGet; simp [hi]
    rw [hn]
    rw [List.getD_eq_getElem?_getD, List.getElem?_eq_getElem hlt] at hg
    simp only [Option.getD_some] at hg
    simp only [List.getElem?_eq_getElem hlt, hg]

/-! ## Quantiles -/

theorem isQuantile_exists {l : List Rat} (hl : l ≠ []) {p : Rat} (hp : 0 ≤ p ∧ p ≤ 1) :
    ∃ (k : Nat) (a : Rat), (List.insertionSort (· ≤ ·) l)[k]? = some a ∧
      (p * ((l.length : Rat) - 1)).floor = k ∧
      (p * ((l.length : Rat) - 1) = k ∨ ∃ b, (List.insertionSort (· ≤ ·) l)[k + 1]? = some b) := by
  have hpos : 1 ≤ l.length := List.length_pos_iff.2 hl
  have hc : (1 : Rat) ≤ l.length := by exact_mod_cast hpos
  have h0 : 0 ≤ p * ((l.length : Rat) - 1) := mul_nonneg hp.1 (by linarith)
  have h1 : p * ((l.length : Rat) - 1) ≤ (l.length : Rat) - 1 := by nlinarith [hp.2]
  generalize p * ((l.length : Rat) - 1) = h at h0 h1
  have hf0 : 0 ≤ h.floor := by rw [Rat.le_floor_iff]; simpa using h0
  obtain ⟨k, hk⟩ := Int.eq_ofNat_of_zero_le hf0
  have hkh : (k : Rat) ≤ h := by
    have := (Rat.le_floor_iff (x := h.floor) (a := h)).1 le_rfl
    rw [hk] at this; exact_mod_cast this
  have hlen : (List.insertionSort (· ≤ ·) l).length = l.length := List.length_insertionSort _ _
  have hkl : k < l.length := by
    have : (k : Rat) ≤ (l.length : Rat) - 1 := hkh.trans h1
    have : (k : Rat) + 1 ≤ l.length := by linarith
    exact_mod_cast this
  refine ⟨k, _, List.getElem?_eq_getElem (by omega), hk, ?_⟩
  by_cases he : h = k
  · exact Or.inl he
  · right
    have hlt : (k : Rat) < h := lt_of_le_of_ne hkh (Ne.symm he)
    have : k + 1 < l.length := by
      have : (k : Rat) < (l.length : Rat) - 1 := hlt.trans_le h1
      have : (k : Rat) + 1 < l.length := by linarith
      exact_mod_cast this
    exact ⟨_, List.getElem?_eq_getElem (by omega)⟩

theorem score_fraction {x : List Fl} {ls : List Nat} (h : IsLexsort x ls) (hf : finites x ≠ []) {p : Rat}
    (hp : 0 ≤ p ∧ p ≤ 1) : ∃ y, score .fraction x ls p = .ok (.fin y) ∧ IsQuantile (finites x) p y := by
  obtain ⟨k, a, ha, hk, hb⟩ := isQuantile_exists hf hp
  have hd : dataLen x ≠ 0 := by rw [dataLen_eq]; simpa using hf
  have hperm := List.perm_insertionSort (· ≤ ·) (finites x)
  have hsort := List.pairwise_insertionSort (· ≤ ·) (finites x)
  unfold score
  rw [if_neg hd, dataLen_eq]
  have hkh : (k : Rat) ≤ p * (((finites x).length : Rat) - 1) := by
    have := (Rat.le_floor_iff (x := (p * (((finites x).length : Rat) - 1)).floor)).1 le_rfl
    rw [hk] at this; exact_mod_cast this
  have hkh2 : p * (((finites x).length : Rat) - 1) < k + 1 := by
    have := (Rat.floor_lt_iff (a := p * (((finites x).length : Rat) - 1)) (x := (k : Int) + 1)).1 (by omega)
    exact_mod_cast this
  generalize hh : p * (((finites x).length : Rat) - 1) = w at *
  have ht : trunc w = k := by
    unfold trunc
    rw [if_pos (le_trans (by positivity) hkh), hk]
  by_cases he : w - (w.floor : Rat) = 0
  · refine ⟨a, ?_, _, hperm, hsort, k, a, ha, by rw [hh]; exact hkh, by rw [hh]; exact hkh2, Or.inl ⟨?_, rfl⟩⟩
    · simp only [he, ↓reduceIte, ht]
      exact val_eq h ha
    · rw [hh]
      rw [hk] at he
      have : w = (k : Int) := by linarith
      exact_mod_cast this
  · rcases hb with hb | ⟨b, hb⟩
    · exact absurd (by rw [hk, hb]; simp) he
    · refine ⟨a + (b - a) * (w - k), ?_, _, hperm, hsort, k, a, ha, by rw [hh]; exact hkh, by rw [hh]; exact hkh2,
        Or.inr ⟨b, hb, by rw [hh]⟩⟩
      simp only [he, ↓reduceIte, ht, val_eq h ha]
      have := val_eq h hb
      push_cast at this
      rw [this]
      simp [interp, hk]

theorem score_nan (m : Method) {x : List Fl} (ls : List Nat) (hf : finites x = []) (p : Rat) :
    score m x ls p = .ok .nan := by
  unfold score
  rw [if_pos (by rw [dataLen_eq, hf]; rfl)]

theorem sorted_get {s : List Rat} (hs : s.Pairwise (· ≤ ·)) {i j : Nat} {a b : Rat} (hi : s[i]? = some a)
    (hj : s[j]? = some b) (h : i ≤ j) : a ≤ b := by
  rw [List.getElem?_eq_some_iff] at hi hj
  obtain ⟨hi', rfl⟩ := hi
  obtain ⟨hj', rfl⟩ := hj
  rcases Nat.lt_or_ge i j with h' | h'
  · exact List.pairwise_iff_getElem.1 hs i j hi' hj' h'
  · have : i = j := by omega
    subst this; exact le_rfl

/-- a quantile lies between its neighbours -/
theorem quantile_between {s : List Rat} (hs : s.Pairwise (· ≤ ·)) {h y a : Rat} {k : Nat} (ha : s[k]? = some a)
    (h0 : (k : Rat) ≤ h) (h1 : h < k + 1)
    (hy : (h = k ∧ y = a) ∨ ∃ b, s[k + 1]? = some b ∧ y = a + (b - a) * (h - k)) :
    a ≤ y ∧ ∀ b, s[k + 1]? = some b → y ≤ b := by
  rcases hy with ⟨-, rfl⟩ | ⟨b, hb, rfl⟩
  · exact ⟨le_rfl, fun b hb => sorted_get hs ha hb (by omega)⟩
  · have hab := sorted_get hs ha hb (by omega)
    refine ⟨?_, ?_⟩
    · have : 0 ≤ (b - a) * (h - k) := mul_nonneg (by linarith) (by linarith)
      linarith
    · intro b' hb'
      rw [hb] at hb'
      injection hb' with e
      subst e
      have : (b - a) * (h - k) ≤ (b - a) * 1 := mul_le_mul_of_nonneg_left (by linarith) (by linarith)
      linarith

theorem isQuantile_mono {l : List Rat} (hl : l ≠ []) {p q y z : Rat} (hpq : p ≤ q) (hy : IsQuantile l p y)
    (hz : IsQuantile l q z) : y ≤ z := by
  obtain ⟨s, hp, hs, k, a, ha, h0, h1, hy⟩ := hy
  obtain ⟨t, hp', hs', k', a', ha', h0', h1', hz⟩ := hz
  have hst : t = s := List.Perm.eq_of_pairwise (fun a b _ _ h h' => _root_.le_antisymm h h') hs' hs (hp'.trans hp.symm)
  subst hst
  have hpos : 1 ≤ l.length := List.length_pos_iff.2 hl
  have hc : (1 : Rat) ≤ l.length := by exact_mod_cast hpos
  have hh : p * ((l.length : Rat) - 1) ≤ q * ((l.length : Rat) - 1) := mul_le_mul_of_nonneg_right hpq (by linarith)
  generalize p * ((l.length : Rat) - 1) = h at *
  generalize q * ((l.length : Rat) - 1) = h' at *
  have hkk : k ≤ k' := by
    have : (k : Rat) < k' + 1 := by linarith
    have : k < k' + 1 := by exact_mod_cast this
    omega
  obtain ⟨b1, b2⟩ := quantile_between hs ha h0 h1 hy
  obtain ⟨c1, c2⟩ := quantile_between hs ha' h0' h1' hz
  rcases Nat.lt_or_ge k k' with hlt | hge
  · have hlen : k + 1 < t.length := by
      have := (List.getElem?_eq_some_iff.1 ha').1
      omega
    have hb := List.getElem?_eq_getElem hlen
    have := b2 _ hb
    have := sorted_get hs hb ha' (by omega)
    linarith
  · have : k' = k := by omega
    subst this
    rw [ha] at ha'
    injection ha' with e
    subst e
    rcases hy with ⟨-, rfl⟩ | ⟨b, hb, rfl⟩
    · exact c1
    · rcases hz with ⟨e, rfl⟩ | ⟨b', hb', rfl⟩
      · have : h = k' := by linarith
        rw [this]; simp
      · rw [hb] at hb'
        injection hb' with e
        subst e
        have hab := sorted_get hs ha hb (by omega)
        have := mul_le_mul_of_nonneg_left (sub_le_sub_right hh (k' : Rat)) (sub_nonneg.2 hab)
        linarith

theorem isQuantile_zero {l : List Rat} {y : Rat} (hy : IsQuantile l 0 y) : ∀ v ∈ l, y ≤ v := by
  obtain ⟨s, hp, hs, k, a, ha, h0, h1, hy⟩ := hy
  simp only [zero_mul] at h0 h1 hy
  have hk : k = 0 := by
    have : (k : Rat) ≤ (0 : Nat) := by simpa using h0
    have : k ≤ 0 := by exact_mod_cast this
    omega
  subst hk
  have hya : y = a := by
    rcases hy with ⟨-, rfl⟩ | ⟨b, -, rfl⟩
    · rfl
    · simp
  subst hya
  intro v hv
  obtain ⟨i, hi⟩ := List.getElem?_of_mem (hp.mem_iff.2 hv)
  exact sorted_get hs ha hi (by omega)

theorem isQuantile_one {l : List Rat} {y : Rat} (hy : IsQuantile l 1 y) : ∀ v ∈ l, v ≤ y := by
  obtain ⟨s, hp, hs, k, a, ha, h0, h1, hy⟩ := hy
  simp only [one_mul] at h0 h1 hy
  have hlen := hp.length_eq
  have hkl := (List.getElem?_eq_some_iff.1 ha).1
  have hk : k + 1 = l.length := by
    have : (l.length : Rat) < k + 2 := by linarith
    have : l.length < k + 2 := by exact_mod_cast this
    omega
  have hya : y = a := by
    rcases hy with ⟨-, rfl⟩ | ⟨b, hb, rfl⟩
    · rfl
    · have := (List.getElem?_eq_some_iff.1 hb).1
      omega
  subst hya
  intro v hv
  obtain ⟨i, hi⟩ := List.getElem?_of_mem (hp.mem_iff.2 hv)
  have := (List.getElem?_eq_some_iff.1 hi).1
  exact sorted_get hs hi ha (by omega)

end Verif.Bin
