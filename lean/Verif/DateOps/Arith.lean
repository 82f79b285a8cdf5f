import Verif.DateOps.Props

/-!
# Properties: sums and differences of dates, times and spans (C82)
-/
namespace Verif.DateOps
open Spec

theorem tspan_tspan (op : Op) (ts us : List (Option Int)) (hf : Fit ts us) :
    ∃ r, tspanOp op ts (.tspan us) = .ok (.tspan r) ∧ Pointwise (combine op) (ts.map id) (us.map id) (r.map id) := by
  have hcell : ∀ a b : Option Int, floatOp2 op a b = combine op a b := by
    intro a b; cases a <;> cases b <;> rfl
  cases op with
  | sub =>
    obtain ⟨r, h0, hp⟩ := plain_pointwise .sub id id id (floatOp2 .sub) ts us hf (fun a _ b _ => hcell a b)
    exact ⟨r, by simp only [tspanOp, h0, bind, Except.bind, pure, Except.pure], hp⟩
  | add =>
    obtain ⟨r, h0, hl, hr⟩ := bcast_entry (floatOp2 .add) hf
    refine ⟨fixMask r (us.map Option.isNone), by simp only [tspanOp, h0, bind, Except.bind, pure, Except.pure], ?_⟩
    unfold fixMask
    simp only [List.length_map]
    by_cases hu : us.length = 1
    · rw [if_pos hu]
      exact pointwise_of (combine .add) id id id ts us r _ hf hl hr (fun a _ b _ => hcell a b)
    · rw [if_neg hu]
      have hout : outLen ts us = us.length := by
        unfold outLen
        rcases hf with h | h | h
        · split <;> omega
        · simp [h]
        · exact absurd h hu
      refine pointwise_of (combine .add) id id id ts us _ (fun a b => if b.isNone then none else floatOp2 .add a b) hf
        (by rw [putmask_length _ _ _ (by simp [hl, hout]), hl]) ?_ ?_
      · intro i a b hi ha hb
        have hb' : us[i]? = some b := by simpa [entry, hu] using hb
        rw [putmask_get _ _ _ _ _ _ (hr i a b hi ha hb) (by simp [hb'] : (us.map Option.isNone)[i]? = some b.isNone)]
      · intro a _ b _
        cases a <;> cases b <;> rfl

theorem tspan_dspan (ts : List (Option Int)) (ys : List Int) (hf : Fit ts ys) (hn : NanoDays ys)
    (h1 : ys.length ≠ 1 ∨ -(2 ^ 31) ∉ ys) :
    ∃ r, tspanOp .add ts (.dspan ys) = .ok (.tspan r) ∧ Pointwise (combine .add) (ts.map id) (ys.map rDspan) (r.map id) := by
  obtain ⟨r, h0, hl, hr⟩ := bcast_entry (fun t y => floatOp2 .add t (some (w64 (y * NPD)))) hf
  refine ⟨fixMask r (ys.map fun y => decide (y = I32)), by simp only [tspanOp, h0, bind, Except.bind, pure, Except.pure], ?_⟩
  have hcell : ∀ a, ∀ b ∈ ys, b ≠ -(2 ^ 31) → floatOp2 .add a (some (w64 (b * NPD))) = combine .add a (rDspan b) := by
    intro a b hb hb'
    have := hn b hb hb'
    rw [npd_day, w64_eq (by omega) this.2]
    simp only [rDspan, if_neg hb']
    cases a <;> rfl
  unfold fixMask
  simp only [List.length_map]
  by_cases hu : ys.length = 1
  · rw [if_pos hu]
    have hv : -(2 ^ 31) ∉ ys := by
      rcases h1 with h | h
      · exact absurd hu h
      · exact h
    exact pointwise_of (combine .add) id rDspan id ts ys r _ hf hl hr (fun a _ b hb => hcell a b hb (fun e => hv (e ▸ hb)))
  · rw [if_neg hu]
    have hout : outLen ts ys = ys.length := by
      unfold outLen
      rcases hf with h | h | h
      · split <;> omega
      · simp [h]
      · exact absurd h hu
    refine pointwise_of (combine .add) id rDspan id ts ys _
      (fun a b => if decide (b = I32) then none else floatOp2 .add a (some (w64 (b * NPD)))) hf
      (by rw [putmask_length _ _ _ (by simp [hl, hout]), hl]) ?_ ?_
    · intro i a b hi ha hb
      have hb' : ys[i]? = some b := by simpa [entry, hu] using hb
      rw [putmask_get _ _ _ _ _ _ (hr i a b hi ha hb) (by simp [hb'] : (ys.map fun y => decide (y = I32))[i]? = some (decide (b = I32)))]
    · intro a _ b hb
      by_cases hb' : b = -(2 ^ 31)
      · have : rDspan b = none := by simp [rDspan, hb']
        rw [this]
        subst hb'
        cases a <;> simp [combine, I32]
      · have : decide (b = I32) = false := decide_eq_false (by simpa only [I32] using hb')
        simp only [this, id]
        exact hcell a b hb hb'

/-- **C82, sums and differences.** For every two columns whose kinds can be added or subtracted,
whose lengths fit, and which are not among the combinations `Sound` leaves out: the result has
the kind one expects; each of its entries stands for the sum (the difference) of what the two
entries stand for, in nanoseconds; and it is invalid exactly when one of the two entries is.
(`Room`: the results fit in the result's type.  A `DateTimeNano` that is subtracted from a
`Date` was made in GMT.) -/
theorem arith_partial (op : Op) (v w : Val) (kv kw k : Kind) (hv : kindOf v = some kv) (hw : kindOf w = some kw)
    (hk : resultKind op kv kw = some k) (hf : FitV v w) (hs : Sound op v w) (hr : Room op k v w) :
    ∃ r, binop id op v w = .ok r ∧ kindOf r = some k ∧ Pointwise (combine op) (meaning v) (meaning w) (meaning r) := by
  cases v <;> cases hv <;> cases w <;> cases hw <;> cases op <;> cases hk <;> simp only [FitV, meaning, Sound] at hf hs <;>
    replace hf := fit_map _ _ hf
  case date.refl.dspan.refl.add.refl xs ys =>
    obtain ⟨r, h, hp⟩ := date_funnel_dspan .add xs ys hf hs hr
    exact ⟨_, h, rfl, hp⟩
  case date.refl.dspan.refl.sub.refl xs ys =>
    obtain ⟨r, h, hp⟩ := date_funnel_dspan .sub xs ys hf hs hr
    exact ⟨_, h, rfl, hp⟩
  case date.refl.tspan.refl.add.refl xs ts =>
    obtain ⟨r, h, hp⟩ := date_funnel_tspan .add xs ts hf hs hr
    exact ⟨_, h, rfl, hp⟩
  case date.refl.tspan.refl.sub.refl xs ts =>
    obtain ⟨r, h, hp⟩ := date_funnel_tspan .sub xs ts hf hs hr
    exact ⟨_, h, rfl, hp⟩
  case date.refl.date.refl.sub.refl xs ys =>
    obtain ⟨r, h, hp⟩ := plain_pointwise .sub rDate rDate rDspan subDays xs ys hf (fun a ha b hb =>
      subDays_cell a b (fun m n hm hn => hr m n (by simp only [meaning, List.mem_map]; exact ⟨a, ha, hm⟩)
        (by simp only [meaning, List.mem_map]; exact ⟨b, hb, hn⟩)))
    exact ⟨.dspan r, by simp only [binop, dateOp, h, bind, Except.bind, pure, Except.pure], rfl, hp⟩
  case date.refl.nano.refl.sub.refl xs ys =>
    have hf' : Fit (xs.map fun x => id (w64 (x * NPD))) ys := by simpa [Fit] using hf
    obtain ⟨r, h, hp⟩ := plain_pointwise .sub rNano rNano id subNanos (xs.map fun x => id (w64 (x * NPD))) ys hf'
      (fun a _ b _ => subNanos_cell a b)
    refine ⟨.tspan r, by simp only [binop, dateOp, nanoOp, h, bind, Except.bind, pure, Except.pure], rfl, ?_⟩
    have e : (xs.map fun x => id (w64 (x * NPD))).map rNano = xs.map rDate := by
      rw [List.map_map]
      apply List.map_congr_left
      intro x hx
      have hx' : x ≠ -(2 ^ 31) := fun e => hs.2 (e ▸ hx)
      exact midnight_of_day' x hx' (hs.1 x hx hx')
    rw [e] at hp
    exact hp
  case dspan.refl.date.refl.add.refl xs ys =>
    obtain ⟨r, h, hp⟩ := dspan_date xs ys hf hs hr
    exact ⟨_, h, rfl, hp⟩
  case dspan.refl.dspan.refl.add.refl xs ys =>
    obtain ⟨r, h, hp⟩ := dspan_dspan .add xs ys hf hs hr
    exact ⟨_, h, rfl, hp⟩
  case dspan.refl.dspan.refl.sub.refl xs ys =>
    obtain ⟨r, h, hp⟩ := dspan_dspan .sub xs ys hf hs hr
    exact ⟨_, h, rfl, hp⟩
  case dspan.refl.nano.refl.add.refl xs ys =>
    obtain ⟨r, h, hp⟩ := dspan_nano xs ys hf hs.1 hs.2.1 hs.2.2.1 hs.2.2.2 hr
    exact ⟨_, h, rfl, hp⟩
  case dspan.refl.tspan.refl.add.refl xs ts =>
    obtain ⟨r, h, hp⟩ := dspan_tspan .add xs ts hf hs.1 hs.2.1 hs.2.2.1 hs.2.2.2
    exact ⟨_, h, rfl, hp⟩
  case dspan.refl.tspan.refl.sub.refl xs ts =>
    obtain ⟨r, h, hp⟩ := dspan_tspan .sub xs ts hf hs.1 hs.2.1 hs.2.2.1 hs.2.2.2
    exact ⟨_, h, rfl, hp⟩
  case nano.refl.dspan.refl.add.refl xs ys =>
    obtain ⟨r, h, hp⟩ := nano_dspan .add xs ys hf hs hr
    exact ⟨_, h, rfl, hp⟩
  case nano.refl.dspan.refl.sub.refl xs ys =>
    obtain ⟨r, h, hp⟩ := nano_dspan .sub xs ys hf hs hr
    exact ⟨_, h, rfl, hp⟩
  case nano.refl.tspan.refl.add.refl xs ts =>
    obtain ⟨r, h, hp⟩ := nano_tspan .add xs ts hf hs.1 hs.2 hr
    exact ⟨_, h, rfl, hp⟩
  case nano.refl.tspan.refl.sub.refl xs ts =>
    obtain ⟨r, h, hp⟩ := nano_tspan .sub xs ts hf hs.1 hs.2 hr
    exact ⟨_, h, rfl, hp⟩
  case nano.refl.nano.refl.sub.refl xs ys =>
    obtain ⟨r, h, hp⟩ := plain_pointwise .sub rNano rNano id subNanos xs ys hf (fun a _ b _ => subNanos_cell a b)
    exact ⟨.tspan r, by simp only [binop, nanoOp, h, bind, Except.bind, pure, Except.pure], rfl, hp⟩
  case nano.refl.date.refl.sub.refl xs ys =>
    have hf' : Fit xs (ys.map fun y => w64 (widen I32 y * NPD)) := by simpa [Fit] using hf
    obtain ⟨r, h, hp⟩ := plain_pointwise .sub rNano rNano id subNanos xs _ hf' (fun a _ b _ => subNanos_cell a b)
    refine ⟨.tspan r, by simp only [binop, nanoOp, h, bind, Except.bind, pure, Except.pure], rfl, ?_⟩
    have e : (ys.map fun y => w64 (widen I32 y * NPD)).map rNano = ys.map rDate := by
      rw [List.map_map]
      apply List.map_congr_left
      intro y hy
      exact midnight_of_day y (hs y hy)
    rw [e] at hp
    exact hp
  case tspan.refl.tspan.refl.add.refl ts us =>
    obtain ⟨r, h, hp⟩ := tspan_tspan .add ts us hf
    exact ⟨_, h, rfl, hp⟩
  case tspan.refl.tspan.refl.sub.refl ts us =>
    obtain ⟨r, h, hp⟩ := tspan_tspan .sub ts us hf
    exact ⟨_, h, rfl, hp⟩
  case tspan.refl.dspan.refl.add.refl ts ys =>
    obtain ⟨r, h, hp⟩ := tspan_dspan ts ys hf hs.1 hs.2
    exact ⟨_, h, rfl, hp⟩
  case tspan.refl.date.refl.add.refl ts ys =>
    have hf' : Fit ys ts := by unfold Fit at hf ⊢; omega
    obtain ⟨r, h, hp⟩ := date_funnel_tspan .add ys ts hf' hs (by
      intro m n hm hn
      have := hr n m hn hm
      simp only [Op.on] at this ⊢
      rw [Int.add_comm]; exact this)
    exact ⟨_, h, rfl, pointwise_comm (by simpa [Fit, meaning] using hf') hp⟩
  case tspan.refl.nano.refl.add.refl ts ys =>
    have hf' : Fit ys ts := by unfold Fit at hf ⊢; omega
    obtain ⟨r, h, hp⟩ := nano_tspan .add ys ts hf' hs.1 hs.2 (by
      intro m n hm hn
      have := hr n m hn hm
      simp only [Op.on] at this ⊢
      rw [Int.add_comm]; exact this)
    exact ⟨_, h, rfl, pointwise_comm (by simpa [Fit, meaning] using hf') hp⟩

/-- the column broadcasting makes -/
def bval {α β γ : Type} (f : α → β → γ) (xs : List α) (ys : List β) : List γ := (bcast f xs ys).toOption.getD []

theorem bcast_ok {α β γ : Type} (f : α → β → γ) {xs : List α} {ys : List β} (hf : Fit xs ys) :
    bcast f xs ys = .ok (bval f xs ys) := by
  obtain ⟨r, h, _⟩ := bcast_entry f hf
  simp only [bval, h]; rfl

theorem fit_symm {α β : Type} {xs : List α} {ys : List β} (hf : Fit xs ys) : Fit ys xs := by
  unfold Fit at hf ⊢; omega

theorem fit_map_left {α β γ : Type} (g : α → γ) {xs : List α} {ys : List β} (hf : Fit xs ys) : Fit (xs.map g) ys := by
  simpa [Fit] using hf

theorem fit_map_right {α β γ : Type} (g : β → γ) {xs : List α} {ys : List β} (hf : Fit xs ys) : Fit xs (ys.map g) := by
  simpa [Fit] using hf

/-- **C82, kinds.** Two columns whose lengths fit can be added or subtracted exactly when their
kinds can (two points in time are not added, no point in time is subtracted from a span), and
then the kind of the result is the expected one; otherwise the operation raises. -/
theorem kinds_exact (toUtc : Int → Int) (op : Op) (v w : Val) (kv kw : Kind) (hv : kindOf v = some kv) (hw : kindOf w = some kw)
    (hf : FitV v w) :
    match resultKind op kv kw with
    | some k => ∃ r, binop toUtc op v w = .ok r ∧ kindOf r = some k
    | none => ∃ e, binop toUtc op v w = .error e := by
  cases v <;> cases hv <;> cases w <;> cases hw <;> cases op <;> first
    | exact ⟨_, rfl⟩
    | (simp only [FitV, meaning] at hf
       replace hf := fit_map _ _ hf
       have hf2 := fit_symm hf
       simp only [binop, dateOp, dateFunnel, dspanOp, nanoOp, tspanOp, bcast_ok _ hf, bcast_ok _ hf2, bcast_ok _ (fit_map_left _ hf),
         bcast_ok _ (fit_map_right _ hf), bind, Except.bind, pure, Except.pure, resultKind]
       exact ⟨_, rfl, rfl⟩)

end Verif.DateOps
