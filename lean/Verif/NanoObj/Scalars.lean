import Verif.NanoObj.Results
/-! # Scalars (C221, C222, C223, C224) -/
namespace Verif.NanoObj
open Verif.Tz (Zone TimeZone)
open Verif.Arrow (toUtcWrap dateShown)
open Verif.Pandas (Int64)
open Verif.DateOps (I64)

/-- **C221 (partial)** `d[i].isnan()` and `d.isnan()[i]` are the same exactly for times that are not before 1970, and invalid ones. -/
theorem isnan_exact (x : Int) (hx : Int64 x) : scalarIsnan x = arrayIsnan x ↔ ¬ (I64 < x ∧ x < 0) := by
  have h1 : NpOps.least true 3 = -9223372036854775808 := by decide
  have h2 : I64 = -9223372036854775808 := by decide
  unfold Pandas.Int64 at hx
  rw [h1] at hx
  unfold scalarIsnan arrayIsnan DateOps.nanOrZero
  rw [h2, Bool.eq_iff_iff, decide_eq_true_eq, decide_eq_true_eq]
  omega

/-- **C221** violated: the last nanosecond of 1969 is valid in an array, but not as a scalar. -/
theorem isnan_counterexample : scalarIsnan (-1) = true ∧ arrayIsnan (-1) = false ∧ Int64 (-1) := by unfold Pandas.Int64; decide

/-- **C222 (partial)** A scalar of an array that was made from UTC (or GMT) times, given to a Dataset as a column, becomes a column with the
same instant in every row, displayed in the same zone. Missing: other `from_tz`. -/
theorem repeat_partial (tz : TimeZone) (hf : tz.fromTz = .utc ∨ tz.fromTz = .gmt) (x : Int) (hx : Int64 x) (n : Nat) :
    (scalarRepeat tz x n).1 = List.replicate n x ∧ (scalarRepeat tz x n).2.toTz = tz.toTz := by
  refine ⟨?_, rfl⟩
  show (List.replicate n x).map _ = _
  rw [List.map_replicate]
  congr 1
  rcases hf with hf | hf <;> rw [hf]
  · exact Pandas.toUtcWrap_utc _ hx
  · exact toUtcWrap_gmt _ hx

/-- **C222** For every zone but UTC, GMT and Dublin the column has another instant than the scalar, for every scalar that is valid. (For
times of which the shifted one is a 64 bit integer.) -/
theorem repeat_shifted (tz : TimeZone) (hf : tz.fromTz ≠ .utc ∧ tz.fromTz ≠ .gmt ∧ tz.fromTz ≠ .dublin) (x : Int) (hx : x ≠ 0) (n : Nat)
    (hr : Int64 ((TimeZone.init tz.fromTz tz.toTz).toUtc x)) : ∀ y ∈ (scalarRepeat tz x n).1, y ≠ x := by
  intro y hy
  have hy : y = toUtcWrap (TimeZone.init tz.fromTz tz.toTz) x := by
    have hy' : y ∈ (List.replicate n x).map (toUtcWrap (TimeZone.init tz.fromTz tz.toTz)) := hy
    rw [List.map_replicate] at hy'
    exact List.eq_of_mem_replicate hy'
  rw [hy]
  unfold toUtcWrap
  rw [wrap_id hr, Tz.toUtc_eq _ _ _ hx]
  have hn : Tz.nanosPerHour = 3600000000000 := by decide
  have ho : tz.fromTz.offset ≠ 0 ∧ tz.fromTz.offset ≠ 3600000000000 := by
    obtain ⟨h1, h2, h3⟩ := hf
    cases hz : tz.fromTz <;> first | contradiction | decide
  rw [hn]
  split <;> omega

/-- **C222** violated: 2020-01-01 00:00 UTC, a scalar of an array made from New York times, becomes a column of 05:00 UTC. -/
theorem repeat_counterexample : (scalarRepeat (TimeZone.init .nyc .nyc) 1577836800000000000 2).1 = [1577854800000000000, 1577854800000000000] ∧
    1577854800000000000 - 1577836800000000000 = 5 * Tz.nanosPerHour := by
  refine ⟨?_, by decide⟩
  have key : toUtcWrap (TimeZone.init .nyc .nyc) 1577836800000000000 = 1577854800000000000 := by decide +kernel
  show (List.replicate 2 1577836800000000000).map (toUtcWrap (TimeZone.init .nyc .nyc)) = _
  rw [List.map_replicate, key]
  rfl

theorem nanoOp_one (op : DateOps.Spec.Op) (x : Int) (t : Option Int) :
    DateOps.nanoOp op [x] [x] (.tspan [t]) = .ok (.nano (if x ≤ 0 then [I64] else [DateOps.w64 (op.on x (DateOps.spanInt t))])) := by
  rfl

theorem int64_w64 (x : Int) : Int64 (DateOps.w64 x) := by
  unfold Pandas.Int64 DateOps.w64
  have h1 : NpOps.least true 3 = -9223372036854775808 := by decide
  have h2 : NpOps.greatest true 3 = 9223372036854775807 := by decide
  have h3 := Int.le_bmod (x := x) (m := 2 ^ 64) (by norm_num)
  have h4 := Int.bmod_lt (x := x) (m := 2 ^ 64) (by norm_num)
  rw [h1, h2]
  norm_num at h3 h4 ⊢
  omega

theorem w64_id {x : Int} (h : Int64 x) : DateOps.w64 x = x := wrap_id h

theorem scalarOp_eq (op : DateOps.Spec.Op) (tz : TimeZone) (x : Int) (hx : Int64 x) (t : Option Int) :
    scalarOp op tz x t = .ok (if x ≤ 0 then I64 else DateOps.w64 (op.on x (DateOps.spanInt t)), TimeZone.init .gmt .nyc) := by
  unfold scalarOp
  rw [Pandas.toUtcWrap_utc _ hx, nanoOp_one]
  by_cases h : x ≤ 0
  · rw [if_pos h, if_pos h]
    show Except.ok (toUtcWrap _ I64, _) = _
    rw [toUtcWrap_gmt _ (by unfold Pandas.Int64; decide)]
  · rw [if_neg h, if_neg h]
    show Except.ok (toUtcWrap _ _, _) = _
    rw [toUtcWrap_gmt _ (int64_w64 _)]

/-- **C223 (partial)** A valid scalar from 1970 on, plus or minus a span, is the sum or difference, as it is for arrays (if it is a 64 bit
integer); an invalid scalar stays invalid. Missing: times before 1970, spans that are NaN. -/
theorem scalarOp_partial (op : DateOps.Spec.Op) (tz : TimeZone) (x : Int) (hx : Int64 x) (t : Int) (ht : Int64 (op.on x t)) (h : x = I64 ∨ 0 ≤ x)
    (hv : op.on x t ≠ 0 ∧ op.on x t ≠ I64) :
    ∃ y tz', scalarOp op tz x (some t) = .ok (y, tz') ∧ dateShown I64 y = DateOps.Spec.combine op (dateShown I64 x) (some t) := by
  refine ⟨_, _, scalarOp_eq op tz x hx (some t), ?_⟩
  have h2 : I64 = -9223372036854775808 := by decide
  by_cases h0 : x ≤ 0
  · have hx' : x = 0 ∨ x = I64 := by
      rcases h with h | h
      · exact .inr h
      · exact .inl (by omega)
    rw [if_pos h0]
    show dateShown I64 I64 = _
    unfold dateShown
    rw [if_pos (.inr rfl), if_pos hx']
    rfl
  · have hx' : ¬ (x = 0 ∨ x = I64) := by rw [h2]; omega
    rw [if_neg h0]
    show dateShown I64 (DateOps.w64 (op.on x t)) = _
    rw [w64_id ht]
    unfold dateShown
    rw [if_neg hx', if_neg (by rintro (e | e); exacts [hv.1 e, hv.2 e])]
    rfl

example : Int64 1577836800000000000 ∧ Int64 (DateOps.Spec.Op.add.on 1577836800000000000 5) := by unfold Pandas.Int64; decide

/-- **C223** violated: a time before 1970 plus one nanosecond is invalid; and a time plus a span that is NaN is a valid time. -/
theorem scalarOp_counterexample (tz : TimeZone) :
    (∃ tz', scalarOp .add tz (-5) (some 1) = .ok (I64, tz')) ∧ dateShown I64 (-5) = some (-5) ∧
    (∃ y tz', scalarOp .add tz 1577836800000000000 none = .ok (y, tz') ∧ dateShown I64 y ≠ none) := by
  refine ⟨⟨_, scalarOp_eq .add tz (-5) (by unfold Pandas.Int64; decide) (some 1)⟩, by decide, ?_⟩
  refine ⟨_, _, scalarOp_eq .add tz 1577836800000000000 (by unfold Pandas.Int64; decide) none, ?_⟩
  show dateShown I64 (if (1577836800000000000 : Int) ≤ 0 then I64 else DateOps.w64 (DateOps.Spec.Op.add.on 1577836800000000000 (DateOps.spanInt none))) ≠ none
  decide +kernel

/-- **C224 (partial)** The result of adding a span to a scalar is displayed in the zone of the scalar exactly if that is New York. -/
theorem scalarOp_zone_exact (op : DateOps.Spec.Op) (tz : TimeZone) (x : Int) (hx : Int64 x) (t : Option Int) (y : Int) (tz' : TimeZone)
    (h : scalarOp op tz x t = .ok (y, tz')) : tz'.toTz = tz.toTz ↔ tz.toTz = .nyc := by
  rw [scalarOp_eq op tz x hx t] at h
  cases h
  exact eq_comm

/-- **C224** violated: a scalar displayed in Tokyo plus a span is displayed in New York. -/
theorem scalarOp_zone_counterexample : ∃ y tz', scalarOp .add (TimeZone.init .utc .tokyo) 5 (some 1) = .ok (y, tz') ∧ tz'.toTz = .nyc :=
  ⟨_, _, scalarOp_eq .add _ 5 (by unfold Pandas.Int64; decide) (some 1), rfl⟩

end Verif.NanoObj
