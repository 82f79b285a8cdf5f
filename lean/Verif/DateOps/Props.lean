import Verif.DateOps.Lemmas

/-!
# Properties: arithmetic of dates, times and spans (C82)
-/
namespace Verif.DateOps
open Spec

/-! ## What the columns stand for -/

/-- an entry of a `Date`: day `x` after 1970-01-01, where 0 and the minimum are invalid -/
def rDate (x : Int) : Option Int := if x = 0 ∨ x = -(2 ^ 31) then none else some (x * day)
/-- an entry of a `DateSpan`: `x` days -/
def rDspan (x : Int) : Option Int := if x = -(2 ^ 31) then none else some (x * day)
/-- an entry of a `DateTimeNano`: nanosecond `x` after 1970-01-01 in UTC -/
def rNano (x : Int) : Option Int := if x = 0 ∨ x = -(2 ^ 63) then none else some x

/-- what the entries of a column stand for, in nanoseconds -/
def meaning : Val → List (Option Int)
  | .date xs => xs.map rDate
  | .dspan xs => xs.map rDspan
  | .nano xs => xs.map rNano
  | .tspan ts => ts.map id
  | _ => []

/-- the kind of a column -/
def kindOf : Val → Option Kind
  | .date _ => some .date
  | .dspan _ => some .dspan
  | .nano _ => some .nano
  | .tspan _ => some .tspan
  | _ => none

/-- the days are within the reach of 64-bit nanoseconds (about 292 years from 1970) -/
def NanoDays (xs : List Int) : Prop := ∀ x ∈ xs, x ≠ -(2 ^ 31) → -(2 ^ 63) < x * day ∧ x * day < 2 ^ 63

/-- the invalid entries of a column `xs` and of the other operand (whose entries stand for `B`)
are masked properly: `xs` has not exactly one entry, or it has one entry after 1970-01-01 (a
positive one) and nothing in the other operand is invalid -/
def Masked (xs : List Int) (B : List (Option Int)) : Prop := xs.length ≠ 1 ∨ ((∀ x ∈ xs, 0 < x) ∧ none ∉ B)

/-- where the code does what it should: the operand whose invalid entries are masked by hand is
`Masked`; a `DateSpan` meets times only if nothing is invalid; a `TimeSpan` meets
a `DateSpan` of one entry only if that is valid, and never to have it subtracted. -/
def Sound : Op → Val → Val → Prop
  | _, .date xs, .dspan ys => Masked xs (ys.map rDspan)
  | _, .date xs, .tspan ts => Masked xs (ts.map id)
  | _, .date _, .date _ => True
  | _, .date xs, .nano _ => NanoDays xs ∧ -(2 ^ 31) ∉ xs
  | _, .dspan xs, .date ys => Masked xs (ys.map rDate)
  | _, .dspan xs, .dspan ys => Masked xs (ys.map rDspan)
  | _, .dspan xs, .tspan ts => Masked xs (ts.map id) ∧ NanoDays xs ∧ -(2 ^ 31) ∉ xs ∧ none ∉ ts
  | _, .dspan xs, .nano ys => Masked xs (ys.map rNano) ∧ -(2 ^ 31) ∉ xs ∧ 0 ∉ ys ∧ -(2 ^ 63) ∉ ys
  | _, .nano xs, .dspan ys => Masked xs (ys.map rDspan)
  | _, .nano xs, .tspan ts => Masked xs (ts.map id) ∧ some (-(2 ^ 63)) ∉ ts
  | _, .nano _, .nano _ => True
  | _, .nano _, .date ys => NanoDays ys
  | _, .tspan ts, .date ys => Masked ys (ts.map id)
  | _, .tspan ts, .nano ys => Masked ys (ts.map id) ∧ some (-(2 ^ 63)) ∉ ts
  | .add, .tspan _, .dspan ys => NanoDays ys ∧ (ys.length ≠ 1 ∨ -(2 ^ 31) ∉ ys)
  | .sub, .tspan _, .dspan _ => False
  | _, .tspan _, .tspan _ => True
  | _, _, _ => False

/-! ## Cells -/

theorem on_days (op : Op) (x y : Int) : op.on (x * day) (y * day) = op.on x y * day := by
  cases op
  · simp only [Op.on]; rw [Int.add_mul]
  · simp only [Op.on]; rw [Int.sub_mul]

theorem day_inj {x y : Int} (h : x * day = y * day) : x = y := by
  have : (86400000000000 : Int) ≠ 0 := by decide
  exact Int.eq_of_mul_eq_mul_right this h

theorem rDate_of_holds {z : Int} (h : Holds .date (z * day)) : rDate (w32 z) = some (z * day) := by
  obtain ⟨d, e, h0, h1, h2⟩ := h
  cases day_inj e
  rw [w32_eq (by omega) h2]
  simp only [rDate]
  rw [if_neg (by omega)]

theorem rDspan_of_holds {z : Int} (h : Holds .dspan (z * day)) : rDspan (w32 z) = some (z * day) := by
  obtain ⟨d, e, h1, h2⟩ := h
  cases day_inj e
  rw [w32_eq (by omega) h2]
  simp only [rDspan]
  rw [if_neg (by omega)]

theorem rNano_of_holds {z : Int} (h : Holds .nano z) : rNano (w64 z) = some z := by
  obtain ⟨h0, h1, h2⟩ := h
  rw [w64_eq (by omega) h2]
  simp only [rNano]
  rw [if_neg (by omega)]

theorem date_nan_iff (x : Int) : nanOrZero I32 x = true ↔ rDate x = none := by
  simp only [nanOrZero, rDate, I32]
  by_cases h : x = 0 ∨ x = -(2 ^ 31)
  · simp only [h, decide_true, if_true]
  · simp only [h, decide_false, if_false]; simp

theorem dspan_nan_iff (x : Int) : decide (x = I32) = true ↔ rDspan x = none := by
  simp only [rDspan, I32]
  by_cases h : x = -(2 ^ 31)
  · simp only [h, decide_true, if_true]
  · simp only [h, decide_false, if_false]; simp

theorem nano_nan_iff (x : Int) : nanOrZero I64 x = true ↔ rNano x = none := by
  simp only [nanOrZero, rNano, I64]
  by_cases h : x = 0 ∨ x = -(2 ^ 63)
  · simp only [h, decide_true, if_true]
  · simp only [h, decide_false, if_false]; simp

/-- a masked cell, whatever the kinds -/
theorem cell_masked {α γ β : Type} (op : Op) (ma : α → Option Int) (mb : β → Option Int) (mr : γ → Option Int)
    (p : α → Bool) (q : β → Bool) (fill : γ) (f : α → β → γ) (a : α) (b : β)
    (hp : p a = true ↔ ma a = none) (hq : q b = true ↔ mb b = none)
    (hfill : (ma a = none ∨ mb b = none) → mr fill = none)
    (hv : ∀ m n, ma a = some m → mb b = some n → mr (f a b) = some (op.on m n)) :
    mr (if p a || q b then fill else f a b) = combine op (ma a) (mb b) := by
  cases ha : ma a with
  | none =>
    have : p a = true := hp.2 ha
    simp only [this, Bool.true_or, if_true, combine]
    exact hfill (Or.inl ha)
  | some m =>
    have hpa : p a = false := by
      cases h : p a
      · rfl
      · rw [hp.1 h] at ha; cases ha
    cases hb : mb b with
    | none =>
      have : q b = true := hq.2 hb
      simp only [this, Bool.or_true, if_true, combine]
      exact hfill (Or.inr hb)
    | some n =>
      have hqb : q b = false := by
        cases h : q b
        · rfl
        · rw [hq.1 h] at hb; cases hb
      simp only [hpa, hqb, Bool.or_self, combine]
      exact hv m n ha hb

/-- masked arithmetic as a whole -/
theorem masked_pointwise {γ β : Type} (op : Op) (ma : Int → Option Int) (mb : β → Option Int) (mr : γ → Option Int)
    (p : Int → Bool) (q : β → Bool) (inv fill : γ) (f : Int → β → γ) (xs : List Int) (ys : List β)
    (hf : Fit xs ys) (h1 : Masked xs (ys.map mb)) (hpos : ∀ a, 0 < a → ma a ≠ none)
    (hp : ∀ a ∈ xs, (p a = true ↔ ma a = none)) (hq : ∀ b ∈ ys, (q b = true ↔ mb b = none))
    (hfill : (∃ a ∈ xs, ma a = none) ∨ (∃ b ∈ ys, mb b = none) → mr fill = none)
    (hv : ∀ a ∈ xs, ∀ b ∈ ys, ∀ m n, ma a = some m → mb b = some n → mr (f a b) = some (op.on m n)) :
    ∃ r0, bcast f xs ys = .ok r0 ∧
      Pointwise (combine op) (xs.map ma) (ys.map mb) ((applyInv xs (xs.map p) r0 inv fill (some (ys.map q))).map mr) := by
  obtain ⟨r0, h0, hl, hr⟩ := bcast_entry f hf
  refine ⟨r0, h0, ?_⟩
  by_cases hx1 : xs.length = 1
  · rcases h1 with h1 | ⟨h1, h2⟩
    · exact absurd hx1 h1
    obtain ⟨x, rfl⟩ := one_eq hx1
    have hx : 0 < x := h1 x (by simp)
    have e : applyInv [x] ([x].map p) r0 inv fill (some (ys.map q)) = r0 := by
      unfold applyInv
      rw [if_pos hx1, if_neg (by simpa using hx)]
    rw [e]
    refine pointwise_of (combine op) ma mb mr [x] ys r0 f hf hl hr ?_
    intro a ha b hb
    have hb' : mb b ≠ none := fun e => h2 (by simp only [List.mem_map]; exact ⟨b, hb, e⟩)
    have ha' := hpos a (h1 a ha)
    cases hma : ma a with
    | none => exact absurd hma ha'
    | some m =>
      cases hmb : mb b with
      | none => exact absurd hmb hb'
      | some n => exact hv a ha b hb m n hma hmb
  · obtain ⟨hl', hr'⟩ := applyInv_entry xs xs p ys q r0 inv fill rfl hx1 hf hl
    refine pointwise_of (combine op) ma mb mr xs ys _ (fun a b => if p a || q b then fill else f a b) hf hl' ?_ ?_
    · intro i a b hi ha hb
      exact hr' i a b _ hi ha hb (hr i a b hi ha hb)
    · intro a ha b hb
      refine cell_masked op ma mb mr p q fill f a b (hp a ha) (hq b hb) ?_ (hv a ha b hb)
      rintro (h | h)
      · exact hfill (Or.inl ⟨a, ha, h⟩)
      · exact hfill (Or.inr ⟨b, hb, h⟩)

theorem rDate_pos (x : Int) (h : 0 < x) : rDate x ≠ none := by
  simp only [rDate]; rw [if_neg (by omega)]; simp

theorem rDspan_pos (x : Int) (h : 0 < x) : rDspan x ≠ none := by
  simp only [rDspan]; rw [if_neg (by omega)]; simp

theorem rNano_pos (x : Int) (h : 0 < x) : rNano x ≠ none := by
  simp only [rNano]; rw [if_neg (by omega)]; simp

theorem rDate_some {x m : Int} (h : rDate x = some m) : m = x * day := by
  simp only [rDate] at h
  split at h
  · cases h
  · cases h; rfl

theorem rDspan_some {x m : Int} (h : rDspan x = some m) : m = x * day ∧ x ≠ -(2 ^ 31) := by
  simp only [rDspan] at h
  split at h
  · cases h
  · rename_i hx; cases h; exact ⟨rfl, hx⟩

theorem rDate_some' {x m : Int} (h : rDate x = some m) : m = x * day ∧ x ≠ 0 ∧ x ≠ -(2 ^ 31) := by
  simp only [rDate] at h
  split at h
  · cases h
  · rename_i hx; cases h; exact ⟨rfl, fun e => hx (Or.inl e), fun e => hx (Or.inr e)⟩

theorem rNano_some {x m : Int} (h : rNano x = some m) : m = x ∧ x ≠ 0 ∧ x ≠ -(2 ^ 63) := by
  simp only [rNano] at h
  split at h
  · cases h
  · rename_i hx; cases h; exact ⟨rfl, fun e => hx (Or.inl e), fun e => hx (Or.inr e)⟩

theorem npd_day : NPD = day := rfl

/-! ## The sum and the difference of two columns -/

/-- two columns have lengths that fit -/
def FitV (v w : Val) : Prop := Fit (meaning v) (meaning w)

/-- whatever is valid on both sides has a result the result column can hold -/
def Room (op : Op) (k : Kind) (v w : Val) : Prop :=
  ∀ m n, some m ∈ meaning v → some n ∈ meaning w → Holds k (op.on m n)

theorem fit_map {α β γ δ : Type} (f : α → γ) (g : β → δ) {xs : List α} {ys : List β} (h : Fit (xs.map f) (ys.map g)) : Fit xs ys := by
  simpa [Fit] using h

theorem combine_comm (a b : Option Int) : combine .add a b = combine .add b a := by
  cases a <;> cases b <;> simp [combine, Op.on, Int.add_comm]

theorem pointwise_comm {A B R : List (Option Int)} (hf : Fit A B) (h : Pointwise (combine .add) A B R) :
    Pointwise (combine .add) B A R := by
  obtain ⟨hl, h⟩ := h
  refine ⟨?_, fun i a b hi ha hb => by rw [combine_comm]; exact h i b a hi hb ha⟩
  rw [hl]
  unfold Fit at hf
  by_cases hA : A.length = 1 <;> by_cases hB : B.length = 1 <;> simp only [hA, hB, if_true, if_false] <;> omega

theorem date_funnel_dspan (op : Op) (xs ys : List Int) (hf : Fit xs ys) (h1 : Masked xs (ys.map rDspan))
    (hr : Room op .date (.date xs) (.dspan ys)) :
    ∃ r, dateFunnel op xs xs (.dspan ys) = .ok (.date r) ∧ Pointwise (combine op) (xs.map rDate) (ys.map rDspan) (r.map rDate) := by
  obtain ⟨r0, h0, hp⟩ := masked_pointwise op rDate rDspan rDate (nanOrZero I32) (fun y => decide (y = I32)) I32 0
    (fun x y => w32 (op.on x y)) xs ys hf h1 rDate_pos (fun a _ => date_nan_iff a) (fun b _ => dspan_nan_iff b) (fun _ => by simp [rDate])
    (by
      intro a ha b hb m n hm hn
      have h := hr m n (by simp only [meaning, List.mem_map]; exact ⟨a, ha, hm⟩) (by simp only [meaning, List.mem_map]; exact ⟨b, hb, hn⟩)
      obtain ⟨rfl, _⟩ := rDate_some' hm
      obtain ⟨rfl, _⟩ := rDspan_some hn
      rw [on_days] at h ⊢
      exact rDate_of_holds h)
  exact ⟨_, by simp only [dateFunnel, h0, bind, Except.bind, pure, Except.pure], hp⟩

theorem date_funnel_tspan (op : Op) (xs : List Int) (ts : List (Option Int)) (hf : Fit xs ts) (h1 : Masked xs (ts.map id))
    (hr : Room op .nano (.date xs) (.tspan ts)) :
    ∃ r, dateFunnel op xs xs (.tspan ts) = .ok (.nano r) ∧ Pointwise (combine op) (xs.map rDate) (ts.map id) (r.map rNano) := by
  obtain ⟨r0, h0, hp⟩ := masked_pointwise op rDate id rNano (nanOrZero I32) Option.isNone I64 0
    (fun x t => w64 (op.on (w64 (x * NPD)) (spanInt t))) xs ts hf h1 rDate_pos (fun a _ => date_nan_iff a)
    (fun b _ => by cases b <;> simp) (fun _ => by simp [rNano])
    (by
      intro a ha b hb m n hm hn
      have h := hr m n (by simp only [meaning, List.mem_map]; exact ⟨a, ha, hm⟩) (by simp only [meaning, List.mem_map]; exact ⟨b, hb, hn⟩)
      obtain ⟨rfl, _⟩ := rDate_some' hm
      simp only [id] at hn
      subst hn
      simp only [spanInt, w64_on_left, npd_day]
      exact rNano_of_holds h)
  exact ⟨_, by simp only [dateFunnel, h0, bind, Except.bind, pure, Except.pure], hp⟩

theorem nano_dspan (op : Op) (xs ys : List Int) (hf : Fit xs ys) (h1 : Masked xs (ys.map rDspan))
    (hr : Room op .nano (.nano xs) (.dspan ys)) :
    ∃ r, nanoOp op xs xs (.dspan ys) = .ok (.nano r) ∧ Pointwise (combine op) (xs.map rNano) (ys.map rDspan) (r.map rNano) := by
  obtain ⟨r0, h0, hp⟩ := masked_pointwise op rNano rDspan rNano (nanOrZero I64) (fun y => decide (y = I32)) I64 0
    (fun x y => w64 (op.on x (w64 (widen I32 y * NPD)))) xs ys hf h1 rNano_pos (fun a _ => nano_nan_iff a) (fun b _ => dspan_nan_iff b) (fun _ => by simp [rNano])
    (by
      intro a ha b hb m n hm hn
      have h := hr m n (by simp only [meaning, List.mem_map]; exact ⟨a, ha, hm⟩) (by simp only [meaning, List.mem_map]; exact ⟨b, hb, hn⟩)
      obtain ⟨rfl, _⟩ := rNano_some hm
      obtain ⟨rfl, hb'⟩ := rDspan_some hn
      simp only [w64_on_right, widen]
      rw [if_neg (by simpa [I32] using hb'), npd_day]
      exact rNano_of_holds h)
  exact ⟨_, by simp only [nanoOp, h0, bind, Except.bind, pure, Except.pure], hp⟩

theorem nano_tspan (op : Op) (xs : List Int) (ts : List (Option Int)) (hf : Fit xs ts) (h1 : Masked xs (ts.map id))
    (hm : some (-(2 ^ 63)) ∉ ts) (hr : Room op .nano (.nano xs) (.tspan ts)) :
    ∃ r, nanoOp op xs xs (.tspan ts) = .ok (.nano r) ∧ Pointwise (combine op) (xs.map rNano) (ts.map id) (r.map rNano) := by
  obtain ⟨r0, h0, hp⟩ := masked_pointwise op rNano id rNano (nanOrZero I64) (fun t => decide (spanInt t = I64)) I64 0
    (fun x t => w64 (op.on x (spanInt t))) xs ts hf h1 rNano_pos (fun a _ => nano_nan_iff a)
    (fun b hb => by
      cases b with
      | none => simp [spanInt]
      | some t =>
        have : t ≠ I64 := fun e => hm (by rw [e] at hb; simpa only [I64] using hb)
        simp [spanInt, this]) (fun _ => by simp [rNano])
    (by
      intro a ha b hb m n hm hn
      have h := hr m n (by simp only [meaning, List.mem_map]; exact ⟨a, ha, hm⟩) (by simp only [meaning, List.mem_map]; exact ⟨b, hb, hn⟩)
      obtain ⟨rfl, _⟩ := rNano_some hm
      simp only [id] at hn
      subst hn
      exact rNano_of_holds h)
  exact ⟨_, by simp only [nanoOp, h0, bind, Except.bind, pure, Except.pure], hp⟩

theorem dspan_dspan (op : Op) (xs ys : List Int) (hf : Fit xs ys) (h1 : Masked xs (ys.map rDspan))
    (hr : Room op .dspan (.dspan xs) (.dspan ys)) :
    ∃ r, dspanOp op xs xs (.dspan ys) = .ok (.dspan r) ∧ Pointwise (combine op) (xs.map rDspan) (ys.map rDspan) (r.map rDspan) := by
  obtain ⟨r0, h0, hp⟩ := masked_pointwise op rDspan rDspan rDspan (fun x => decide (x = I32)) (fun y => decide (y = I32)) I32 I32
    (fun x y => w32 (op.on x y)) xs ys hf h1 rDspan_pos (fun a _ => dspan_nan_iff a) (fun b _ => dspan_nan_iff b) (fun _ => by simp [rDspan, I32])
    (by
      intro a ha b hb m n hm hn
      have h := hr m n (by simp only [meaning, List.mem_map]; exact ⟨a, ha, hm⟩) (by simp only [meaning, List.mem_map]; exact ⟨b, hb, hn⟩)
      obtain ⟨rfl, _⟩ := rDspan_some hm
      obtain ⟨rfl, _⟩ := rDspan_some hn
      rw [on_days] at h ⊢
      exact rDspan_of_holds h)
  exact ⟨_, by simp only [dspanOp, h0, bind, Except.bind, pure, Except.pure], hp⟩

theorem dspan_date (xs ys : List Int) (hf : Fit xs ys) (h1 : Masked xs (ys.map rDate))
    (hr : Room .add .date (.dspan xs) (.date ys)) :
    ∃ r, dspanOp .add xs xs (.date ys) = .ok (.date r) ∧ Pointwise (combine .add) (xs.map rDspan) (ys.map rDate) (r.map rDate) := by
  obtain ⟨r0, h0, hp⟩ := masked_pointwise .add rDspan rDate rDate (fun x => decide (x = I32)) (nanOrZero I32) I32 I32
    (fun x y => w32 (x + y)) xs ys hf h1 rDspan_pos (fun a _ => dspan_nan_iff a) (fun b _ => date_nan_iff b) (fun _ => by simp [rDate, I32])
    (by
      intro a ha b hb m n hm hn
      have h := hr m n (by simp only [meaning, List.mem_map]; exact ⟨a, ha, hm⟩) (by simp only [meaning, List.mem_map]; exact ⟨b, hb, hn⟩)
      obtain ⟨rfl, _⟩ := rDspan_some hm
      obtain ⟨rfl, _⟩ := rDate_some' hn
      rw [on_days] at h ⊢
      exact rDate_of_holds h)
  exact ⟨_, by simp only [dspanOp, h0, bind, Except.bind, pure, Except.pure], hp⟩

theorem dspan_tspan (op : Op) (xs : List Int) (ts : List (Option Int)) (hf : Fit xs ts) (h1 : Masked xs (ts.map id))
    (hn : NanoDays xs) (hx : -(2 ^ 31) ∉ xs) (ht : none ∉ ts) :
    ∃ r, dspanOp op xs xs (.tspan ts) = .ok (.tspan r) ∧ Pointwise (combine op) (xs.map rDspan) (ts.map id) (r.map id) := by
  obtain ⟨r0, h0, hp⟩ := masked_pointwise op rDspan id id (fun x => decide (x = I32)) Option.isNone none (some I32)
    (fun x t => floatOp op (w64 (x * NPD)) t) xs ts hf h1 rDspan_pos (fun a _ => dspan_nan_iff a)
    (fun b _ => by cases b <;> simp)
    (by
      rintro (⟨a, ha, h⟩ | ⟨b, hb, h⟩)
      · have := (dspan_nan_iff a).2 h
        simp only [decide_eq_true_eq] at this
        rw [this] at ha; exact absurd (by simpa only [I32] using ha) hx
      · simp only [id] at h; subst h; exact absurd hb ht)
    (by
      intro a ha b hb m n hm hn'
      obtain ⟨rfl, ha'⟩ := rDspan_some hm
      simp only [id] at hn'
      subst hn'
      have := hn a ha ha'
      simp only [floatOp, npd_day, w64_eq (by omega : -(2 ^ 63) ≤ a * day) this.2, id, Option.map_some])
  exact ⟨_, by simp only [dspanOp, h0, bind, Except.bind, pure, Except.pure], hp⟩

theorem dspan_nano (xs ys : List Int) (hf : Fit xs ys) (h1 : Masked xs (ys.map rNano))
    (hx : -(2 ^ 31) ∉ xs) (hy0 : 0 ∉ ys) (hy : -(2 ^ 63) ∉ ys) (hr : Room .add .nano (.dspan xs) (.nano ys)) :
    ∃ r, dspanOp .add xs xs (.nano ys) = .ok (.nano r) ∧ Pointwise (combine .add) (xs.map rDspan) (ys.map rNano) (r.map rNano) := by
  obtain ⟨r0, h0, hp⟩ := masked_pointwise .add rDspan rNano rNano (fun x => decide (x = I32)) (nanOrZero I64) I64 I32
    (fun x y => w64 (w64 (x * NPD) + y)) xs ys hf h1 rDspan_pos (fun a _ => dspan_nan_iff a) (fun b _ => nano_nan_iff b)
    (by
      rintro (⟨a, ha, h⟩ | ⟨b, hb, h⟩)
      · have := (dspan_nan_iff a).2 h
        simp only [decide_eq_true_eq] at this
        rw [this] at ha; exact absurd (by simpa only [I32] using ha) hx
      · simp only [rNano] at h
        split at h
        · rename_i hb'
          rcases hb' with rfl | rfl
          · exact absurd hb hy0
          · exact absurd hb hy
        · cases h)
    (by
      intro a ha b hb m n hm hn
      have h := hr m n (by simp only [meaning, List.mem_map]; exact ⟨a, ha, hm⟩) (by simp only [meaning, List.mem_map]; exact ⟨b, hb, hn⟩)
      obtain ⟨rfl, _⟩ := rDspan_some hm
      obtain ⟨rfl, _⟩ := rNano_some hn
      rw [w64_add_left, npd_day]
      exact rNano_of_holds h)
  exact ⟨_, by simp only [dspanOp, h0, bind, Except.bind, pure, Except.pure], hp⟩

/-- an operation done entry by entry -/
theorem plain_pointwise {α β γ : Type} (op : Op) (ma : α → Option Int) (mb : β → Option Int) (mr : γ → Option Int)
    (f : α → β → γ) (xs : List α) (ys : List β) (hf : Fit xs ys)
    (hv : ∀ a ∈ xs, ∀ b ∈ ys, mr (f a b) = combine op (ma a) (mb b)) :
    ∃ r, bcast f xs ys = .ok r ∧ Pointwise (combine op) (xs.map ma) (ys.map mb) (r.map mr) := by
  obtain ⟨r0, h0, hl, hr⟩ := bcast_entry f hf
  exact ⟨r0, h0, pointwise_of (combine op) ma mb mr xs ys r0 f hf hl hr hv⟩

theorem subDays_cell (x y : Int) (h : ∀ m n, rDate x = some m → rDate y = some n → Holds .dspan (m - n)) :
    rDspan (subDays x y) = combine .sub (rDate x) (rDate y) := by
  unfold subDays
  cases hx : rDate x with
  | none => rw [if_pos (Or.inl ((date_nan_iff x).2 hx))]; simp [rDspan, I32, combine]
  | some m =>
    cases hy : rDate y with
    | none => rw [if_pos (Or.inr ((date_nan_iff y).2 hy))]; simp [rDspan, I32, combine]
    | some n =>
      have hm := h m n hx hy
      rw [if_neg]
      · obtain ⟨rfl, _⟩ := rDate_some' hx
        obtain ⟨rfl, _⟩ := rDate_some' hy
        simp only [combine, Op.on]
        rw [← Int.sub_mul] at hm ⊢
        exact rDspan_of_holds hm
      · rintro (e | e)
        · rw [(date_nan_iff x).1 e] at hx; cases hx
        · rw [(date_nan_iff y).1 e] at hy; cases hy

theorem subNanos_cell (x y : Int) : subNanos x y = combine .sub (rNano x) (rNano y) := by
  unfold subNanos
  cases hx : rNano x with
  | none => rw [if_pos (Or.inl ((nano_nan_iff x).2 hx))]; simp [combine]
  | some m =>
    cases hy : rNano y with
    | none => rw [if_pos (Or.inr ((nano_nan_iff y).2 hy))]; simp [combine]
    | some n =>
      rw [if_neg]
      · obtain ⟨rfl, _⟩ := rNano_some hx
        obtain ⟨rfl, _⟩ := rNano_some hy
        rfl
      · rintro (e | e)
        · rw [(nano_nan_iff x).1 e] at hx; cases hx
        · rw [(nano_nan_iff y).1 e] at hy; cases hy

theorem midnight_of_day (y : Int) (h : y ≠ -(2 ^ 31) → -(2 ^ 63) < y * day ∧ y * day < 2 ^ 63) :
    rNano (w64 (widen I32 y * NPD)) = rDate y := by
  by_cases h1 : y = -(2 ^ 31)
  · subst h1
    decide +kernel
  · simp only [widen]
    rw [if_neg (by simpa [I32] using h1), npd_day, w64_eq (by have := h h1; omega) (h h1).2]
    simp only [rNano, rDate]
    by_cases h0 : y = 0
    · subst h0; simp
    · rw [if_neg, if_neg]
      · rintro (e | e)
        · exact h0 e
        · exact h1 e
      · rintro (e | e)
        · exact h0 (day_inj (by simpa using e))
        · have := (h h1).1; omega

theorem midnight_of_day' (y : Int) (h1 : y ≠ -(2 ^ 31)) (h : -(2 ^ 63) < y * day ∧ y * day < 2 ^ 63) :
    rNano (w64 (y * NPD)) = rDate y := by
  have := midnight_of_day y (fun _ => h)
  simpa only [widen, if_neg (show ¬ y = I32 by simpa [I32] using h1)] using this

end Verif.DateOps
