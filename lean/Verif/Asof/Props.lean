import Verif.Asof.Kernel
import Mathlib.Algebra.Order.Group.Abs
import Mathlib.Algebra.Order.Group.Int

/-!
# C05, C06, C08, C09: as-of merges without a `by` key
-/
namespace Verif.Asof
open Verif.Merge (applyWrites applyWrites_getElem?_mem applyWrites_length)
section
variable {α : Type} [LinearOrder α]

/-! ## From positions to rows -/

/-- What a backward search found, with the reason when it found nothing. -/
def OutcomeB [Sub α] (exact : Bool) (tol : Option α) (cand : Nat → α → Prop) (x : α) (r : Option Nat) : Prop :=
  (∃ j y, cand j y ∧ Before exact y x ∧ (∀ j' y', cand j' y' → Before exact y' x → j' ≤ j) ∧
    ((Within tol (x - y) ∧ r = some j) ∨ (¬ Within tol (x - y) ∧ r = none))) ∨
  ((∀ j y, cand j y → ¬ Before exact y x) ∧ r = none)

/-- What a forward search found. -/
def OutcomeF [Sub α] (exact : Bool) (tol : Option α) (cand : Nat → α → Prop) (x : α) (r : Option Nat) : Prop :=
  (∃ j y, cand j y ∧ Before exact x y ∧ (∀ j' y', cand j' y' → Before exact x y' → j ≤ j') ∧
    ((Within tol (y - x) ∧ r = some j) ∨ (¬ Within tol (y - x) ∧ r = none))) ∨
  ((∀ j y, cand j y → ¬ Before exact x y) ∧ r = none)

theorem OutcomeB.isBackward [Sub α] {exact : Bool} {tol : Option α} {cand : Nat → α → Prop} {x : α}
    {r : Option Nat} (hf : ∀ j y y', cand j y → cand j y' → y = y')
    (h : OutcomeB exact tol cand x r) : IsBackward exact tol cand x r := by
  intro j
  rcases h with ⟨i, y, h1, h2, h3, h4⟩ | ⟨h1, h2⟩
  · rcases h4 with ⟨h4, rfl⟩ | ⟨h4, rfl⟩
    · constructor
      · intro e
        obtain rfl := Option.some.inj e
        exact ⟨y, h1, h2, h4, h3⟩
      · rintro ⟨y', a, b, c, d⟩
        have e1 := h3 j y' a b
        have e2 := d i y h1 h2
        rw [le_antisymm e1 e2]
    · constructor
      · intro e; simp at e
      · rintro ⟨y', a, b, c, d⟩
        have e1 := h3 j y' a b
        have e2 := d i y h1 h2
        obtain rfl := le_antisymm e1 e2
        rw [hf _ _ _ a h1] at c
        exact absurd c h4
  · subst h2
    constructor
    · intro e; simp at e
    · rintro ⟨y', a, b, c, d⟩
      exact absurd b (h1 j y' a)

theorem OutcomeF.isForward [Sub α] {exact : Bool} {tol : Option α} {cand : Nat → α → Prop} {x : α}
    {r : Option Nat} (hf : ∀ j y y', cand j y → cand j y' → y = y')
    (h : OutcomeF exact tol cand x r) : IsForward exact tol cand x r := by
  intro j
  rcases h with ⟨i, y, h1, h2, h3, h4⟩ | ⟨h1, h2⟩
  · rcases h4 with ⟨h4, rfl⟩ | ⟨h4, rfl⟩
    · constructor
      · intro e
        obtain rfl := Option.some.inj e
        exact ⟨y, h1, h2, h4, h3⟩
      · rintro ⟨y', a, b, c, d⟩
        have e1 := h3 j y' a b
        have e2 := d i y h1 h2
        rw [le_antisymm e1 e2]
    · constructor
      · intro e; simp at e
      · rintro ⟨y', a, b, c, d⟩
        have e1 := h3 j y' a b
        have e2 := d i y h1 h2
        obtain rfl := le_antisymm e1 e2
        rw [hf _ _ _ a h1] at c
        exact absurd c h4
  · subst h2
    constructor
    · intro e; simp at e
    · rintro ⟨y', a, b, c, d⟩
      exact absurd b (h1 j y' a)

theorem greaterThan_some (e : Bool) (y x : α) : greaterThan e (some y) (some x) = true ↔ Before e x y := by
  cases e <;> simp [greaterThan, kle, klt, Before]

theorem tolBwd_iff [Sub α] (tol : Option α) (x y : α) :
    tolBwd tol (some x) (some y) = true ↔ Within tol (x - y) := by
  cases tol <;> simp [tolBwd, Within]

theorem tolFwd_iff [Sub α] (tol : Option α) (x y : α) :
    tolFwd tol (some x) (some y) = true ↔ Within tol (y - x) := by
  cases tol <;> simp [tolFwd, Within]

/-- `cand` lists the rows of the right side of run `r`. -/
structure CandOf (r : Run α) (cand : Nat → α → Prop) : Prop where
  iff : ∀ j y, cand j y ↔ ∃ h, h < r.hlen ∧ r.hIdx h = j ∧ r.H h = some y
  valid : ∀ h, h < r.hlen → ∃ y, r.H h = some y
  mono : ∀ h h', h ≤ h' → h' < r.hlen → r.hIdx h ≤ r.hIdx h'

theorem outcomeB_of_best [Sub α] {r : Run α} {tol : Option α} (ht : r.tol = tolBwd tol)
    {cand : Nat → α → Prop} (hc : CandOf r cand) {t : Nat} {x : α} (hx : r.N t = some x)
    {res : Option Nat} (h : BestB r t res) : OutcomeB r.exact tol cand x res := by
  rcases h with ⟨p, hp, h1, h2, h3⟩ | ⟨h1, h2⟩
  · obtain ⟨y, hy⟩ := hc.valid p hp
    rw [hx, hy, lessThan_some] at h1
    refine Or.inl ⟨r.hIdx p, y, (hc.iff _ _).mpr ⟨p, hp, rfl, hy⟩, h1, ?_, ?_⟩
    · intro j' y' hcd hb
      obtain ⟨q, hq, rfl, hqy⟩ := (hc.iff _ _).mp hcd
      exact hc.mono q p (h2 q hq (by rw [hx, hqy, lessThan_some]; exact hb)) hp
    · rw [hx, hy, ht] at h3
      by_cases hw : Within tol (x - y)
      · exact Or.inl ⟨hw, by rw [h3, if_pos ((tolBwd_iff _ _ _).mpr hw)]⟩
      · exact Or.inr ⟨hw, by rw [h3, if_neg (fun h => hw ((tolBwd_iff _ _ _).mp h))]⟩
  · refine Or.inr ⟨fun j y hcd hb => ?_, h2⟩
    obtain ⟨q, hq, rfl, hqy⟩ := (hc.iff _ _).mp hcd
    have := h1 q hq
    rw [hx, hqy, (lessThan_some _ _ _).mpr hb] at this
    simp at this

theorem outcomeF_of_best [Sub α] {r : Run α} {tol : Option α} (ht : r.tol = tolFwd tol)
    {cand : Nat → α → Prop} (hc : CandOf r cand) {t : Nat} {x : α} (hx : r.N t = some x)
    {res : Option Nat} (h : BestF r t res) : OutcomeF r.exact tol cand x res := by
  rcases h with ⟨p, hp, h1, h2, h3⟩ | ⟨h1, h2⟩
  · obtain ⟨y, hy⟩ := hc.valid p hp
    rw [hx, hy, greaterThan_some] at h1
    refine Or.inl ⟨r.hIdx p, y, (hc.iff _ _).mpr ⟨p, hp, rfl, hy⟩, h1, ?_, ?_⟩
    · intro j' y' hcd hb
      obtain ⟨q, hq, rfl, hqy⟩ := (hc.iff _ _).mp hcd
      exact hc.mono p q (h2 q hq (by rw [hx, hqy, greaterThan_some]; exact hb)) hq
    · rw [hx, hy, ht] at h3
      by_cases hw : Within tol (y - x)
      · exact Or.inl ⟨hw, by rw [h3, if_pos ((tolFwd_iff _ _ _).mpr hw)]⟩
      · exact Or.inr ⟨hw, by rw [h3, if_neg (fun h => hw ((tolFwd_iff _ _ _).mp h))]⟩
  · refine Or.inr ⟨fun j y hcd hb => ?_, h2⟩
    obtain ⟨q, hq, rfl, hqy⟩ := (hc.iff _ _).mp hcd
    have := h1 q hq
    rw [hx, hqy, (greaterThan_some _ _ _).mpr hb] at this
    simp at this

/-- the result cell of a needle after all writes -/
theorem covers_apply {r : Run α} {w : List (Nat × Option Nat)} {P : Nat → Option Nat → Prop}
    (h : Covers r w P) (out : List (Option Nat))
    (hinj : ((List.range r.nlen).map r.nIdx).Nodup) {t : Nat} (ht : t < r.nlen)
    (hlt : r.nIdx t < out.length) : ∃ res, (applyWrites out w)[r.nIdx t]? = some res ∧ P t res := by
  obtain ⟨res, h1, h2⟩ := h.2 t ht
  exact ⟨res, applyWrites_getElem?_mem w _ _ (h.1.nodup_iff.mpr hinj) h1 out hlt, h2⟩

/-! ## Ungrouped runs -/

theorem ascF_flat (lo : α) (l : List (Option α)) (n : Nat) (hn : n ≤ l.length) :
    AscF lo (fun t => l.getD t none) n ↔ Ascending lo (l.take n) := by
  constructor
  · rintro ⟨h1, h2⟩
    have hv : ∀ t, (ht : t < n) → ∃ y, l[t]? = some (some y) ∧ lo ≤ y := by
      intro t ht
      obtain ⟨a, b, e1, e2, e3⟩ := (kle_iff _ _).mp (h1 t ht)
      obtain rfl := Option.some.inj e1
      refine ⟨b, ?_, e3⟩
      dsimp only at e2
      rw [List.getD_eq_getElem?_getD, List.getElem?_eq_getElem (by omega)] at e2
      rw [List.getElem?_eq_getElem (by omega)]
      simpa using e2
    have hmap : ∃ v : List α, l.take n = v.map some := by
      refine ⟨(l.take n).filterMap id, ?_⟩
      have : ∀ o ∈ l.take n, ∃ y, o = some y := by
        intro o ho
        obtain ⟨t, ht⟩ := List.getElem?_of_mem ho
        have hlt : t < n := by
          have := (List.getElem?_eq_some_iff.mp ht).1
          simp at this; omega
        obtain ⟨y, hy, _⟩ := hv t hlt
        rw [List.getElem?_take, if_pos hlt, hy] at ht
        exact ⟨y, (Option.some.inj ht).symm⟩
      generalize l.take n = m at this
      induction m with
      | nil => rfl
      | cons o m ih =>
        obtain ⟨y, rfl⟩ := this o (by simp)
        have := ih (fun o ho => this o (by simp [ho]))
        simp only [List.filterMap_cons, id, List.map_cons]
        exact congrArg _ this
    obtain ⟨v, hv'⟩ := hmap
    have hlenv : v.length = n := by
      have := congrArg List.length hv'
      simp at this; omega
    have hget : ∀ t, (ht : t < v.length) → l[t]? = some (some v[t]) := by
      intro t ht
      have := congrArg (fun m : List (Option α) => m[t]?) hv'
      simp only [List.getElem?_take, List.getElem?_map] at this
      rw [if_pos (by omega)] at this
      rw [this, List.getElem?_eq_getElem ht]; rfl
    refine ⟨v, hv', ?_, ?_⟩
    · rw [List.pairwise_iff_getElem]
      intro i j hi hj hij
      have := h2 i j (by omega) (by omega)
      simp only [List.getD_eq_getElem?_getD, hget i hi, hget j hj, Option.getD_some] at this
      simpa [kle] using this
    · intro x hx
      obtain ⟨t, ht, rfl⟩ := List.getElem_of_mem hx
      have := h1 t (by omega)
      simp only [List.getD_eq_getElem?_getD, hget t ht, Option.getD_some] at this
      simpa [kle] using this
  · rintro ⟨v, hv, h1, h2⟩
    have hlenv : v.length = n := by
      have := congrArg List.length hv
      simp at this; omega
    have hget : ∀ t, (ht : t < v.length) → l.getD t none = some v[t] := by
      intro t ht
      have := congrArg (fun m : List (Option α) => m[t]?) hv
      simp only [List.getElem?_take, List.getElem?_map] at this
      rw [if_pos (by omega)] at this
      rw [List.getD_eq_getElem?_getD, this, List.getElem?_eq_getElem ht]; rfl
    refine ⟨fun t ht => ?_, fun t t' h h' => ?_⟩
    · simp only [hget t (by omega)]
      simpa [kle] using h2 _ (List.getElem_mem _)
    · simp only [hget t (by omega), hget t' (by omega)]
      rcases Nat.lt_or_eq_of_le h with h | h
      · simpa [kle] using List.pairwise_iff_getElem.mp h1 t t' (by omega) (by omega) h
      · subst h; simp [kle]

theorem ascTo_flat (hi : α) (l : List (Option α)) :
    AscTo hi (fun t => l.getD t none) l.length ↔ AscendingTo hi l := by
  constructor
  · rintro ⟨h1, h2⟩
    have hne : ∀ (t : Nat) (o : Option α), l[t]? = some o → ∃ y, o = some y ∧ y ≤ hi := by
      intro t o ho
      obtain ⟨a, b, e1, e2, e3⟩ := (kle_iff _ _).mp (h1 t (List.getElem?_eq_some_iff.mp ho).1)
      obtain rfl := Option.some.inj e2
      dsimp only at e1
      rw [List.getD_eq_getElem?_getD, ho] at e1
      exact ⟨a, by simpa using e1, e3⟩
    cases l with
    | nil => exact ⟨[], rfl, by simp, by simp⟩
    | cons o l =>
      obtain ⟨y0, rfl, hy0⟩ := hne 0 o rfl
      have hF : AscF y0 (fun t => (some y0 :: l).getD t none) (some y0 :: l).length :=
        ⟨fun t ht => h2 0 t (by omega) ht, h2⟩
      obtain ⟨v, e1, e2, _⟩ := (ascF_flat y0 (some y0 :: l) _ le_rfl).mp hF
      rw [List.take_length] at e1
      refine ⟨v, e1, e2, fun x hx => ?_⟩
      obtain ⟨t, ht⟩ := List.getElem?_of_mem hx
      obtain ⟨y, hy, hle⟩ := hne t (some x) (by rw [e1, List.getElem?_map, ht]; rfl)
      obtain rfl := Option.some.inj hy
      exact hle
  · rintro ⟨v, rfl, h1, h2⟩
    refine ⟨fun t ht => ?_, fun t t' h h' => ?_⟩
    · have ht' : t < v.length := by simpa using ht
      simp only [List.getD_eq_getElem?_getD, List.getElem?_map, List.getElem?_eq_getElem ht']
      simpa [kle] using h2 _ (List.getElem_mem _)
    · have ht' : t' < v.length := by simpa using h'
      have ht : t < v.length := by omega
      simp only [List.getD_eq_getElem?_getD, List.getElem?_map, List.getElem?_eq_getElem ht', List.getElem?_eq_getElem ht]
      rcases Nat.lt_or_eq_of_le h with h | h
      · simpa [kle] using List.pairwise_iff_getElem.mp h1 t t' (by omega) (by omega) h
      · subst h; simp [kle]

theorem flat_N (e : Bool) (tl : Option α → Option α → Bool) (l r : List (Option α)) :
    (flatRun e tl l r).N = fun t => l.getD t none := rfl
theorem flat_H (e : Bool) (tl : Option α → Option α → Bool) (l r : List (Option α)) :
    (flatRun e tl l r).H = fun t => r.getD t none := rfl

theorem flat_cand (e : Bool) (tl : Option α → Option α → Bool) (l : List (Option α)) (right : List α) :
    CandOf (flatRun e tl l (right.map some)) fun j y => right[j]? = some y := by
  refine ⟨fun j y => ?_, fun h hh => ?_, fun h h' a _ => a⟩
  · rw [flat_H]
    constructor
    · intro h
      exact ⟨j, by simpa [flatRun] using (List.getElem?_eq_some_iff.mp h).1, rfl,
        by simp [List.getD_eq_getElem?_getD, h]⟩
    · rintro ⟨h, hh, rfl, e⟩
      have hh' : h < right.length := by simpa [flatRun] using hh
      dsimp only at e
      rw [List.getD_eq_getElem?_getD, List.getElem?_map, List.getElem?_eq_getElem hh'] at e
      have : right[h] = y := by simpa using e
      simp [flatRun, List.getElem?_eq_getElem hh', this]
  · have hh' : h < right.length := by simpa [flatRun] using hh
    exact ⟨right[h], by simp [flat_H, List.getD_eq_getElem?_getD, List.getElem?_eq_getElem hh']⟩

theorem asc_of_values {lo : α} {v : List α} (h1 : v.Pairwise (· ≤ ·)) (h2 : ∀ x ∈ v, lo ≤ x)
    : AscF lo (fun t => (v.map some).getD t none) (v.map some).length :=
  (ascF_flat lo _ _ le_rfl).mpr ⟨v, List.take_length, h1, h2⟩

theorem ascTo_of_values {hi : α} {v : List α} (h1 : v.Pairwise (· ≤ ·)) (h2 : ∀ x ∈ v, x ≤ hi) :
    AscTo hi (fun t => (v.map some).getD t none) (v.map some).length :=
  (ascTo_flat hi _).mpr ⟨v, rfl, h1, h2⟩

/-- the ungrouped backward kernel on sorted columns -/
theorem bwd_flat [Sub α] (loN loH : α) (tol : Option α) (exact : Bool) (left right : List α)
    (hl : left.Pairwise (· ≤ ·)) (hr : right.Pairwise (· ≤ ·))
    (bl : ∀ x ∈ left, loN ≤ x) (br : ∀ y ∈ right, loH ≤ y) :
    let k := bwdKernel (flatRun exact (tolBwd tol) (left.map some) (right.map some)) loN loH
    k.clean ∧ ∀ (i : Nat) (x : α), left[i]? = some x →
      ∃ r, (applyWrites (List.replicate left.length none) k.w)[i]? = some r ∧
        OutcomeB exact tol (fun j y => right[j]? = some y) x r := by
  intro k
  set R := flatRun exact (tolBwd tol) (left.map some) (right.map some) with hR
  obtain ⟨h1, h2⟩ := bwdKernel_sorted R loN loH (asc_of_values hl bl) (asc_of_values hr br)
  refine ⟨h1, fun i x hx => ?_⟩
  have hi := (List.getElem?_eq_some_iff.mp hx).1
  obtain ⟨res, e1, e2⟩ := covers_apply (t := i) h2 (List.replicate left.length none)
    (by simp [hR, flatRun, List.nodup_range]) (by simpa [hR, flatRun] using hi) (by simpa [hR, flatRun] using hi)
  refine ⟨res, e1, ?_⟩
  exact outcomeB_of_best (r := R) rfl (flat_cand _ _ _ right) (t := i)
    (by simp [hR, flat_N, List.getD_eq_getElem?_getD, hx]) e2

theorem applyWrites_none (n : Nat) (w : List (Nat × Option Nat)) (h : ∀ p ∈ w, p.2 = none) :
    applyWrites (List.replicate n (none : Option Nat)) w = List.replicate n none := by
  induction w with
  | nil => rfl
  | cons p w ih =>
    simp only [Verif.Merge.applyWrites_cons]
    rw [h p (by simp), List.set_replicate_self]
    exact ih fun q hq => h q (by simp [hq])

/-- the ungrouped forward kernel on sorted columns -/
theorem fwd_flat [Sub α] (hiN hiH : α) (tol : Option α) (exact : Bool) (left right : List α)
    (hl : left.Pairwise (· ≤ ·)) (hr : right.Pairwise (· ≤ ·))
    (bl : ∀ x ∈ left, x ≤ hiN) (br : ∀ y ∈ right, y ≤ hiH) :
    let k := fwdKernel (flatRun exact (tolFwd tol) (left.map some) (right.map some)) hiN hiH
    k.clean ∧ ∀ (i : Nat) (x : α), left[i]? = some x →
      ∃ r, (applyWrites (List.replicate left.length none) k.w)[i]? = some r ∧
        OutcomeF exact tol (fun j y => right[j]? = some y) x r := by
  intro k
  set R := flatRun exact (tolFwd tol) (left.map some) (right.map some) with hR
  obtain ⟨h1, w, h2, h3⟩ := fwdKernel_sorted R hiN hiH (ascTo_of_values hl bl) (ascTo_of_values hr br)
  refine ⟨h1, fun i x hx => ?_⟩
  have hi := (List.getElem?_eq_some_iff.mp hx).1
  obtain ⟨res, e1, e2⟩ := covers_apply (t := i) h2 (List.replicate left.length none)
    (by simp [hR, flatRun, List.nodup_range]) (by simpa [hR, flatRun] using hi) (by simpa [hR, flatRun] using hi)
  have hout : OutcomeF exact tol (fun j y => right[j]? = some y) x res :=
    outcomeF_of_best (r := R) rfl (flat_cand _ _ _ right) (t := i)
      (by simp [hR, flat_N, List.getD_eq_getElem?_getD, hx]) e2
  rcases h3 with h3 | ⟨h0, h3⟩
  · exact ⟨res, by rw [show k.w = w from h3]; exact e1, hout⟩
  · refine ⟨none, ?_, ?_⟩
    · rw [show k.w = _ from h3, applyWrites_none _ _ (by simp)]
      simp [hi]
    · have : right = [] := by simpa [hR, flatRun] using h0
      subst this
      exact Or.inr ⟨by simp, rfl⟩

theorem checkFlags_clean {s : St α} (h : s.clean) (out : List (Option Nat)) :
    checkFlags s.hbad.isSome s.nbad.isSome out = .ok out := by
  simp [checkFlags, h.1, h.2]

/-! ## C05 -/

/-- C05.  For sorted columns of valid keys, the backward as-of merge succeeds and gives
every left row the last right row at or before it, if within tolerance. -/
theorem asof_backward_correct [Sub α] (b : Bounds α) (tol : Option α) (exact : Bool) (left right : List α)
    (hl : left.Pairwise (· ≤ ·)) (hr : right.Pairwise (· ≤ ·))
    (bl : ∀ x ∈ left, b.loN ≤ x) (br : ∀ y ∈ right, b.loH ≤ y) :
    ∃ out, asofIndices b tol exact .backward (left.map some) (right.map some) = .ok out ∧
      out.length = left.length ∧
      ∀ (i : Nat) (x : α), left[i]? = some x →
        ∃ r, out[i]? = some r ∧ IsBackward exact tol (fun j y => right[j]? = some y) x r := by
  obtain ⟨h1, h2⟩ := bwd_flat b.loN b.loH tol exact left right hl hr bl br
  refine ⟨applyWrites (List.replicate left.length none)
    (bwdKernel (flatRun exact (tolBwd tol) (left.map some) (right.map some)) b.loN b.loH).w, ?_, by simp, ?_⟩
  · simp only [asofIndices, List.length_map]
    exact checkFlags_clean h1 _
  · intro i x hx
    obtain ⟨r, e1, e2⟩ := h2 i x hx
    exact ⟨r, e1, e2.isBackward fun j y y' a b => by rw [a] at b; exact Option.some.inj b⟩

example : asofIndices ⟨-100, -100, 100, 100⟩ (some 3) true .backward
    ([1, 4, 4, 9, 20].map some) ([2, 4, 4, 7, 30].map some) =
      .ok [none, some 2, some 2, some 3, (none : Option Nat)] := by decide
example : asofIndices ⟨-100, -100, 100, 100⟩ (none : Option Int) false .backward
    ([1, 4, 4, 9, 20].map some) ([2, 4, 4, 7, 30].map some) =
      .ok [none, some 0, some 0, some 3, some 3] := by decide

/-! ## C06 -/

/-- C06.  The forward as-of merge gives every left row the first right row at or after it,
if within tolerance. -/
theorem asof_forward_correct [Sub α] (b : Bounds α) (tol : Option α) (exact : Bool) (left right : List α)
    (hl : left.Pairwise (· ≤ ·)) (hr : right.Pairwise (· ≤ ·))
    (bl : ∀ x ∈ left, x ≤ b.hiN) (br : ∀ y ∈ right, y ≤ b.hiH) :
    ∃ out, asofIndices b tol exact .forward (left.map some) (right.map some) = .ok out ∧
      out.length = left.length ∧
      ∀ (i : Nat) (x : α), left[i]? = some x →
        ∃ r, out[i]? = some r ∧ IsForward exact tol (fun j y => right[j]? = some y) x r := by
  obtain ⟨h1, h2⟩ := fwd_flat b.hiN b.hiH tol exact left right hl hr bl br
  refine ⟨applyWrites (List.replicate left.length none)
    (fwdKernel (flatRun exact (tolFwd tol) (left.map some) (right.map some)) b.hiN b.hiH).w, ?_, by simp, ?_⟩
  · simp only [asofIndices, List.length_map]
    exact checkFlags_clean h1 _
  · intro i x hx
    obtain ⟨r, e1, e2⟩ := h2 i x hx
    exact ⟨r, e1, e2.isForward fun j y y' a b => by rw [a] at b; exact Option.some.inj b⟩

example : asofIndices ⟨-100, -100, 100, 100⟩ (some 3) true .forward
    ([1, 4, 4, 9, 40].map some) ([2, 4, 4, 7, 30].map some) =
      .ok [some 0, some 1, some 1, none, (none : Option Nat)] := by decide

/-- The backward specification determines the result. -/
theorem isBackward_unique [Sub α] {exact : Bool} {tol : Option α} {cand : Nat → α → Prop} {x : α}
    {r r' : Option Nat} (h : IsBackward exact tol cand x r) (h' : IsBackward exact tol cand x r') : r = r' := by
  apply Option.ext
  intro j
  exact (h j).trans (h' j).symm

/-- The forward specification determines the result. -/
theorem isForward_unique [Sub α] {exact : Bool} {tol : Option α} {cand : Nat → α → Prop} {x : α}
    {r r' : Option Nat} (h : IsForward exact tol cand x r) (h' : IsForward exact tol cand x r') : r = r' := by
  apply Option.ext
  intro j
  exact (h j).trans (h' j).symm

end
end Verif.Asof
