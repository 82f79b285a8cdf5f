import Verif.Arrow.Dicts
import Verif.Tz.Props
/-! # Dates, times and time spans to Arrow and back (C194 - C198) -/
namespace Verif.Arrow
open Verif.NpOps

theorem byChunk_shown {A B C : Type} {f : List A → Except Err (List B)} {sh : B → C} {g : A → C} {chunks : List (List A)} (hne : chunks ≠ [])
    (h : ∀ c ∈ chunks, ∃ r, f c = .ok r ∧ r.map sh = c.map g) : ∃ r, byChunk f chunks = .ok r ∧ r.map sh = chunks.flatten.map g := by
  unfold byChunk
  rw [if_neg hne]
  obtain ⟨parts, hparts⟩ := mapM_total (f := f) (l := chunks) fun c hc => by
    obtain ⟨r, hr, _⟩ := h c hc
    exact ⟨r, hr⟩
  rw [hparts]
  refine ⟨_, rfl, ?_⟩
  have hF := mapM_ok.1 hparts
  have hF2 : List.Forall₂ (fun c p => c ∈ chunks ∧ f c = .ok p) chunks parts := by
    rw [List.forall₂_iff_get] at hF ⊢
    exact ⟨hF.1, fun i hi hi' => ⟨List.getElem_mem _, hF.2 i hi hi'⟩⟩
  rw [List.map_flatten, List.map_flatten, ← List.flatMap_def, ← List.flatMap_def]
  refine (forall2_flatMap hF2 ?_).symm
  rintro c p ⟨hc, hp⟩
  obtain ⟨r, hr, hrs⟩ := h c hc
  rw [hp] at hr; cases hr
  exact hrs.symm

/-! ## dates -/

/-- the days of a date64 array, which holds milliseconds -/
def daysOf (ms : Bool) (rows : List (Option Int)) : List (Option Int) := if ms then rows.map (Option.map (· / 86400000)) else rows

/-- date64 arrays hold whole days -/
def WholeDays (rows : List (Option Int)) : Prop := ∀ x, some x ∈ rows → ∃ d : Int, x = d * 86400000

theorem fromDateOne_shown (ms : Bool) (rows : List (Option Int)) (hms : ms = true → WholeDays rows) :
    ∃ r, fromDateOne false ms rows = .ok r ∧ r.map (dateShown (least true 2)) =
      rows.map fun j => j.bind fun x => dateShown (least true 2) (if ms then x / 86400000 else x) := by
  unfold fromDateOne
  have hdays : (if ms = true then rows.map fun r => r.map fun x => Int.tdiv x msPerDay else rows) =
      rows.map fun j => j.map fun x => if ms then x / 86400000 else x := by
    cases ms with
    | false => simp
    | true =>
      rw [if_pos rfl]
      refine List.map_congr_left fun j hj => ?_
      cases j with
      | none => rfl
      | some x =>
        obtain ⟨d, rfl⟩ := hms rfl x hj
        simp [msPerDay]
  dsimp only
  rw [hdays]
  by_cases hn : none ∉ rows.map fun j => j.map fun x => if ms then x / 86400000 else x
  · rw [if_pos hn]
    refine ⟨_, rfl, ?_⟩
    unfold fillNull
    rw [List.map_map, List.map_map]
    refine List.map_congr_left fun j hj => ?_
    cases j with
    | none => exact absurd (List.mem_map.2 ⟨none, hj, rfl⟩) hn
    | some x => rfl
  · rw [if_neg hn, if_neg (by simp)]
    refine ⟨_, rfl, ?_⟩
    unfold fillNull
    rw [List.map_map, List.map_map]
    refine List.map_congr_left fun j hj => ?_
    cases j with
    | none => simp [dateShown]
    | some x => rfl

/-- **C195** `Date.from_arrow` of chunks of dates: every date is kept but 1970-01-01 and day -2147483648, which become invalid; nulls are
invalid. -/
theorem fromArrowDate_exact (ms : Bool) (chunks : List (List (Option Int))) (hne : chunks ≠ []) (hms : ms = true → WholeDays chunks.flatten) :
    ∃ r, fromArrowDate false ms chunks = .ok r ∧ r.map (dateShown (least true 2)) =
      (daysOf ms chunks.flatten).map fun j => j.bind (dateShown (least true 2)) := by
  obtain ⟨r, h1, h2⟩ := byChunk_shown (sh := dateShown (least true 2)) (f := fromDateOne false ms)
    (g := fun j : Option Int => j.bind fun x => dateShown (least true 2) (if ms then x / 86400000 else x)) hne
    fun c hc => fromDateOne_shown ms c fun h x hx => hms h x (List.mem_flatten.2 ⟨c, hc, hx⟩)
  refine ⟨r, h1, ?_⟩
  rw [h2]
  unfold daysOf
  cases ms with
  | false => rfl
  | true =>
    rw [if_pos rfl, List.map_map]
    refine List.map_congr_left fun j _ => ?_
    cases j <;> rfl

/-- **C195 (partial)** Every date is kept and nulls are invalid, if no date is 1970-01-01. Missing: 1970-01-01, and arrays without chunks. -/
theorem fromArrowDate_rows_partial (ms : Bool) (chunks : List (List (Option Int))) (hne : chunks ≠ []) (hms : ms = true → WholeDays chunks.flatten)
    (h0 : ∀ x, some x ∈ daysOf ms chunks.flatten → x ≠ 0 ∧ x ≠ least true 2) :
    ∃ r, fromArrowDate false ms chunks = .ok r ∧ r.map (dateShown (least true 2)) = daysOf ms chunks.flatten := by
  obtain ⟨r, h1, h2⟩ := fromArrowDate_exact ms chunks hne hms
  refine ⟨r, h1, ?_⟩
  rw [h2]
  conv_rhs => rw [← List.map_id (daysOf ms chunks.flatten)]
  refine List.map_congr_left fun j hj => ?_
  cases j with
  | none => rfl
  | some x =>
    have := h0 x hj
    show dateShown _ x = some x
    unfold dateShown
    rw [if_neg (by rintro (h | h); exacts [this.1 h, this.2 h])]

example : WholeDays [some 86400000, none, some (-172800000)] ∧ daysOf true [some 86400000, none, some (-172800000)] = [some 1, none, some (-2)] := by
  refine ⟨?_, by decide⟩
  intro x hx
  simp at hx
  rcases hx with rfl | rfl
  · exact ⟨1, rfl⟩
  · exact ⟨-2, rfl⟩

/-- **C195** violated: the date 1970-01-01 becomes invalid; an array without chunks is refused. -/
theorem fromArrowDate_counterexample : (∃ r, fromArrowDate false false [[some 0]] = .ok r ∧ r.map (dateShown (least true 2)) = [none]) ∧
    fromArrowDate false false [] = .error .valueError :=
  ⟨⟨[0], rfl, by decide +kernel⟩, rfl⟩

/-- **C194** `Date.to_arrow` and back, in whatever chunks: the same dates, and the same rows are invalid. -/
theorem date_round_trip (vals : List Int) (chunks : List (List (Option Int))) (hne : chunks ≠ []) (hc : chunks.flatten = toArrowDate (least true 2) vals) :
    ∃ r, fromArrowDate false false chunks = .ok r ∧ r.map (dateShown (least true 2)) = vals.map (dateShown (least true 2)) := by
  obtain ⟨r, h1, h2⟩ := fromArrowDate_exact false chunks hne (fun h => by cases h)
  refine ⟨r, h1, ?_⟩
  rw [h2, hc]
  unfold daysOf toArrowDate
  rw [if_neg (by simp), List.map_map]
  refine List.map_congr_left fun x _ => ?_
  unfold nanOrZero dateShown
  by_cases h : x = least true 2
  · simp [h]
  · by_cases h' : x = 0 <;> simp [h, h']

example : [[some 5, none], [some (-3)]].flatten = toArrowDate (least true 2) [5, 0, -3] := by decide +kernel

/-! ## times -/

/-- an int64 number -/
def Int64 (x : Int) : Prop := least true 3 ≤ x ∧ x ≤ greatest true 3

instance (x : Int) : Decidable (Int64 x) := by unfold Int64; infer_instance

theorem castNanos_iff (factor : Int) (rows : List (Option Int)) : ((∃ r, castNanos factor rows = .ok r) ↔ ∀ x, some x ∈ rows → Int64 (x * factor)) ∧
    ∀ r, castNanos factor rows = .ok r → r = rows.map (Option.map (· * factor)) := by
  unfold castNanos
  have hall : (rows.all fun r => r.all fun x => decide (least true 3 ≤ x * factor ∧ x * factor ≤ greatest true 3)) = true ↔
      ∀ x, some x ∈ rows → Int64 (x * factor) := by
    rw [List.all_eq_true]
    constructor
    · intro h x hx
      have := h _ hx
      simpa [Int64] using this
    · intro h r hr
      cases r with
      | none => rfl
      | some x => simpa [Int64] using h x hr
  constructor
  · rw [← hall]
    split_ifs with h
    · exact ⟨fun _ => h, fun _ => ⟨_, rfl⟩⟩
    · exact ⟨(fun ⟨r, hr⟩ => by cases hr), fun h' => absurd h' h⟩
  · intro r hr
    split_ifs at hr
    cases hr
    rfl

theorem fromDtnOne_eq {factor : Int} {rows : List (Option Int)} (h : ∀ x, some x ∈ rows → Int64 (x * factor)) :
    fromDtnOne false factor rows = .ok (rows.map fun j => j.elim (least true 3) (· * factor)) := by
  obtain ⟨r, hr⟩ := (castNanos_iff factor rows).1.2 h
  have := (castNanos_iff factor rows).2 r hr
  unfold fromDtnOne
  rw [hr, this]
  dsimp only
  by_cases hn : none ∉ rows.map (Option.map (· * factor))
  · rw [if_pos hn]
    unfold fillNull
    rw [List.map_map]
    congr 1
    refine List.map_congr_left fun j hj => ?_
    cases j with
    | none => exact absurd (List.mem_map.2 ⟨none, hj, rfl⟩) hn
    | some x => rfl
  · rw [if_neg hn, if_neg (by simp)]
    unfold fillNull
    rw [List.map_map]
    congr 1
    refine List.map_congr_left fun j hj => ?_
    cases j <;> rfl

theorem byChunk_eq {A B : Type} {f : List A → Except Err (List B)} {g : A → B} {chunks : List (List A)} (hne : chunks ≠ [])
    (h : ∀ c ∈ chunks, f c = .ok (c.map g)) : byChunk f chunks = .ok (chunks.flatten.map g) := by
  obtain ⟨r, h1, h2⟩ := byChunk_shown (sh := (id : B → B)) (f := f) (g := g) hne fun c hc => ⟨_, h c hc, List.map_id _⟩
  rw [h1]
  rw [List.map_id] at h2
  rw [h2]

theorem fromArrowDtn_eq {factor : Int} {z : Tz.Zone} {chunks : List (List (Option Int))} (hne : chunks ≠ [])
    (h : ∀ x, some x ∈ chunks.flatten → Int64 (x * factor)) :
    fromArrowDtn false factor (.known z) chunks = .ok (newDtn (chunks.flatten.map fun j => j.elim (least true 3) (· * factor)) z) := by
  unfold fromArrowDtn
  rw [if_neg (by simp)]
  dsimp only
  rw [byChunk_eq hne fun c hc => fromDtnOne_eq fun x hx => h x (List.mem_flatten.2 ⟨c, hc, hx⟩)]
  rfl

theorem toUtcWrap_utc {z t : Tz.Zone} (hz : z = .utc ∨ z = .gmt) {x : Int} (hx : Int64 x) : toUtcWrap (Tz.TimeZone.init z t) x = x := by
  unfold toUtcWrap
  have : (Tz.TimeZone.init z t).toUtc x = x := by
    rcases hz with rfl | rfl <;> rfl
  rw [this]
  exact wrap_id 3 hx.1 hx.2

theorem least_int64 : Int64 (least true 3) := by decide +kernel

/-- **C197 (partial)** `DateTimeNano.from_arrow` of timestamps with time zone UTC or GMT in any unit (`factor` nanoseconds): every time is kept
in nanoseconds, and nulls are invalid. Missing: other time zones (`fromArrowDtn_zone_exact` and the counterexamples), the time
1970-01-01 00:00, and arrays without chunks. -/
theorem fromArrowDtn_rows_partial (factor : Int) (z : Tz.Zone) (hz : z = .utc ∨ z = .gmt) (chunks : List (List (Option Int))) (hne : chunks ≠ [])
    (h : ∀ x, some x ∈ chunks.flatten → Int64 (x * factor) ∧ x * factor ≠ 0 ∧ x * factor ≠ least true 3) :
    ∃ r, fromArrowDtn false factor (.known z) chunks = .ok r ∧ r.vals.map (dateShown (least true 3)) = chunks.flatten.map (Option.map (· * factor)) := by
  refine ⟨_, fromArrowDtn_eq hne fun x hx => (h x hx).1, ?_⟩
  unfold newDtn
  dsimp only
  rw [List.map_map, List.map_map]
  refine List.map_congr_left fun j hj => ?_
  cases j with
  | none =>
    show dateShown _ (toUtcWrap _ (least true 3)) = none
    rw [toUtcWrap_utc hz least_int64]
    simp [dateShown]
  | some x =>
    obtain ⟨h1, h2, h3⟩ := h x hj
    show dateShown _ (toUtcWrap _ (x * factor)) = some (x * factor)
    rw [toUtcWrap_utc hz h1]
    unfold dateShown
    rw [if_neg (by rintro (h | h); exacts [h2 h, h3 h])]

example : ∀ x, some x ∈ [[some 5, none], [some (-7)]].flatten → Int64 (x * 1000000000) ∧ x * 1000000000 ≠ 0 ∧ x * 1000000000 ≠ least true 3 := by
  intro x hx
  simp at hx
  rcases hx with rfl | rfl <;> decide +kernel

/-- **C197** Which timestamp arrays are accepted: those with a time zone that riptable knows, with at least one chunk, whose times fit in int64
nanoseconds. -/
theorem fromArrowDtn_ok_iff (factor : Int) (zone : ArrowZone) (chunks : List (List (Option Int))) : (∃ r, fromArrowDtn false factor zone chunks = .ok r) ↔
    (∃ z, zone = .known z) ∧ chunks ≠ [] ∧ ∀ x, some x ∈ chunks.flatten → Int64 (x * factor) := by
  constructor
  · rintro ⟨r, hr⟩
    unfold fromArrowDtn at hr
    rw [if_neg (by simp)] at hr
    cases zone with
    | naive => cases hr
    | unknown => cases hr
    | known z =>
      refine ⟨⟨z, rfl⟩, ?_, ?_⟩
      · rintro rfl; cases hr
      · dsimp only at hr
        cases hb : byChunk (fromDtnOne false factor) chunks with
        | error e => rw [hb] at hr; cases hr
        | ok v =>
          unfold byChunk at hb
          split_ifs at hb with hne
          cases hm : chunks.mapM (fromDtnOne false factor) with
          | error e => rw [hm] at hb; cases hb
          | ok parts =>
            have hF := mapM_ok.1 hm
            intro x hx
            obtain ⟨c, hc, hxc⟩ := List.mem_flatten.1 hx
            obtain ⟨i, hi, rfl⟩ := List.getElem_of_mem hc
            have hi' : i < parts.length := by rw [← hF.length_eq]; exact hi
            have hone := (List.forall₂_iff_get.1 hF).2 i hi hi'
            simp only [List.get_eq_getElem] at hone
            unfold fromDtnOne at hone
            cases hcast : castNanos factor chunks[i] with
            | error e => rw [hcast] at hone; cases hone
            | ok ns => exact (castNanos_iff factor _).1.1 ⟨ns, hcast⟩ x hxc
  · rintro ⟨⟨z, rfl⟩, hne, h⟩
    exact ⟨_, fromArrowDtn_eq hne h⟩

/-- **C197** In other time zones a timestamp, which counts from 1970 in UTC, is taken as wall clock time: the time that comes out is the one at
which clocks in that zone show the number (outside the hours of clock changes). -/
theorem fromArrowDtn_zone_exact (factor : Int) (z : Tz.Zone) (chunks : List (List (Option Int))) (hne : chunks ≠ [])
    (h : ∀ x, some x ∈ chunks.flatten → Int64 (x * factor)) :
    ∃ r, fromArrowDtn false factor (.known z) chunks = .ok r ∧ r.vals.length = chunks.flatten.length ∧
      ∀ (i : Nat) x u, chunks.flatten[i]? = some (some x) → x * factor = Tz.wall z u → x * factor ≠ 0 → Int64 u → ¬ Tz.RepeatedHour z u →
        ¬ (z = .dublin ∧ Tz.StartsDst z u) → r.vals[i]? = some u := by
  refine ⟨_, fromArrowDtn_eq hne h, by unfold newDtn; dsimp only; rw [List.length_map, List.length_map], fun i x u hx hw h0 hu hr hd => ?_⟩
  unfold newDtn
  dsimp only
  rw [List.getElem?_map, List.getElem?_map, hx]
  show some (toUtcWrap _ (x * factor)) = some u
  unfold toUtcWrap
  rw [hw, (Tz.toUtc_exact z .nyc u (hw ▸ h0)).1 hr hd, wrap_id 3 hu.1 hu.2]

/-- 2020-01-01 00:00 UTC -/
def newYear : Int := 1577836800000000000

/-- **C197** violated: a timestamp of Tokyo moves by nine hours, a null becomes a time, 1970-01-01 00:00 becomes invalid, and times without a time zone
are refused. -/
theorem fromArrowDtn_counterexample :
    (∃ r, fromArrowDtn false 1 (.known .tokyo) [[some newYear, none]] = .ok r ∧
      r.vals.map (dateShown (least true 3)) = [some (newYear - 9 * 3600 * 1000000000), some (greatest true 3 - 9 * 3600 * 1000000000 + 1)]) ∧
    (∃ r, fromArrowDtn false 1 (.known .utc) [[some 0]] = .ok r ∧ r.vals.map (dateShown (least true 3)) = [none]) ∧
    fromArrowDtn false 1 .naive [[some newYear]] = .error .valueError := by
  refine ⟨⟨newDtn [newYear, least true 3] .tokyo, ?_, by decide +kernel⟩, ⟨newDtn [0] .utc, ?_, by decide +kernel⟩, rfl⟩
  · exact fromArrowDtn_eq (z := .tokyo) (factor := 1) (chunks := [[some newYear, none]]) (by simp) (by
      intro x hx; simp at hx; subst hx; decide +kernel)
  · exact fromArrowDtn_eq (z := .utc) (factor := 1) (chunks := [[some 0]]) (by simp) (by
      intro x hx; simp at hx; subst hx; decide +kernel)

/-- **C196 (partial)** `DateTimeNano.to_arrow` and back, in whatever chunks, for times made with time zone UTC or GMT: the same times, and the same rows
are invalid. Missing: other time zones, and the time zone in which times are displayed. -/
theorem dtn_round_trip_partial (d : Dtn) (hz : d.tz.fromTz = .utc ∨ d.tz.fromTz = .gmt) (hv : ∀ x ∈ d.vals, Int64 x) (chunks : List (List (Option Int)))
    (hne : chunks ≠ []) (hc : chunks.flatten = (toArrowDtn d).2) :
    ∃ r, fromArrowDtn false 1 (.known (toArrowDtn d).1) chunks = .ok r ∧ r.vals.map (dateShown (least true 3)) = d.vals.map (dateShown (least true 3)) ∧
      r.tz.fromTz = d.tz.fromTz := by
  have hflat : chunks.flatten = d.vals.map fun x => if nanOrZero (least true 3) x then none else some x := hc
  have hok : ∀ x, some x ∈ chunks.flatten → Int64 (x * 1) ∧ x * 1 ≠ 0 ∧ x * 1 ≠ least true 3 := by
    intro x hx
    rw [hflat] at hx
    obtain ⟨y, hy, hyx⟩ := List.mem_map.1 hx
    split_ifs at hyx with hn
    cases hyx
    rw [mul_one]
    unfold nanOrZero at hn
    simp at hn
    exact ⟨hv _ hy, hn.2, hn.1⟩
  have hex : ∃ r, fromArrowDtn false 1 (.known (toArrowDtn d).1) chunks = .ok r ∧ r.tz.fromTz = d.tz.fromTz :=
    ⟨_, fromArrowDtn_eq hne fun x hx => (hok x hx).1, rfl⟩
  obtain ⟨r, h1, h2⟩ := fromArrowDtn_rows_partial 1 (toArrowDtn d).1 hz chunks hne hok
  obtain ⟨r', h1', h3⟩ := hex
  rw [h1] at h1'
  cases h1'
  refine ⟨r, h1, ?_, h3⟩
  rw [h2, hflat, List.map_map]
  refine List.map_congr_left fun x _ => ?_
  unfold nanOrZero dateShown
  by_cases h : x = least true 3
  · simp [h]
  · by_cases h' : x = 0 <;> simp [h, h']

example : [[some newYear], [none, some 7]].flatten = (toArrowDtn ⟨[newYear, 0, 7], Tz.TimeZone.init .utc .nyc⟩).2 := by decide +kernel

/-- **C196** violated: a time made in time zone Tokyo comes back nine hours earlier; times that are displayed in UTC are displayed in New York time. -/
theorem dtn_counterexample :
    (∃ (d r : Dtn), d.tz = Tz.TimeZone.init .tokyo .tokyo ∧ d.vals = [newYear] ∧ fromArrowDtn false 1 (.known (toArrowDtn d).1) [(toArrowDtn d).2] = .ok r ∧
      r.vals = [newYear - 9 * 3600 * 1000000000]) ∧
    ∃ (d r : Dtn), d.tz = Tz.TimeZone.init .utc .utc ∧ fromArrowDtn false 1 (.known (toArrowDtn d).1) [(toArrowDtn d).2] = .ok r ∧ r.tz.toTz = .nyc := by
  refine ⟨⟨⟨[newYear], Tz.TimeZone.init .tokyo .tokyo⟩, newDtn [newYear] .tokyo, rfl, rfl, ?_, by decide +kernel⟩,
    ⟨⟨[newYear], Tz.TimeZone.init .utc .utc⟩, newDtn [newYear] .utc, rfl, ?_, rfl⟩⟩
  · exact fromArrowDtn_eq (z := .tokyo) (factor := 1) (chunks := [[some newYear]]) (by simp) (by
      intro x hx; simp at hx; subst hx; decide +kernel)
  · exact fromArrowDtn_eq (z := .utc) (factor := 1) (chunks := [[some newYear]]) (by simp) (by
      intro x hx; simp at hx; subst hx; decide +kernel)

/-! ## time spans -/

theorem fromSpanOne_eq {rows : List (Option Int)} (h : ∀ x, some x ∈ rows → -2 ^ 53 ≤ x ∧ x ≤ 2 ^ 53) :
    fromSpanOne rows = .ok (rows.map (Option.map fun x : Int => (x : Rat))) := by
  unfold fromSpanOne
  rw [if_pos]
  · rw [List.all_eq_true]
    intro r hr
    cases r with
    | none => rfl
    | some x => simpa using h x hr

/-- **C198 (partial)** `TimeSpan.from_arrow` of durations in any unit (`factor` nanoseconds): every time span is kept, nulls are invalid, if they are at
most 2^53 nanoseconds (104 days). -/
theorem fromArrowSpan_rows_partial (factor : Int) (chunks : List (List (Option Int))) (hne : chunks ≠ [])
    (h : ∀ x, some x ∈ chunks.flatten → -2 ^ 53 ≤ x * factor ∧ x * factor ≤ 2 ^ 53) :
    ∃ r, fromArrowSpan false factor chunks = .ok r ∧ r = chunks.flatten.map (Option.map fun x : Int => ((x * factor : Int) : Rat)) := by
  have h53 : ∀ x : Int, -2 ^ 53 ≤ x ∧ x ≤ 2 ^ 53 → Int64 x := by
    intro x hx
    have h1 : least true 3 ≤ -2 ^ 53 := by decide +kernel
    have h2 : (2 : Int) ^ 53 ≤ greatest true 3 := by decide +kernel
    exact ⟨by omega, by omega⟩
  have hcast : ∀ c ∈ chunks, castNanos factor c = .ok (c.map (Option.map (· * factor))) := by
    intro c hc
    obtain ⟨r, hr⟩ := (castNanos_iff factor c).1.2 fun x hx => h53 _ (h x (List.mem_flatten.2 ⟨c, hc, hx⟩))
    rw [hr, (castNanos_iff factor c).2 r hr]
  have hmap : chunks.mapM (castNanos factor) = .ok (chunks.map fun c => c.map (Option.map (· * factor))) := by
    rw [mapM_ok, List.forall₂_map_right_iff, List.forall₂_same]
    exact hcast
  unfold fromArrowSpan
  rw [if_neg (by simp), hmap]
  dsimp only
  rw [byChunk_eq (g := Option.map fun x : Int => (x : Rat)) (by simpa using hne)]
  · refine ⟨_, rfl, ?_⟩
    rw [List.map_flatten, List.map_map, List.map_flatten]
    congr 1
    refine List.map_congr_left fun c _ => ?_
    rw [Function.comp_apply, List.map_map]
    refine List.map_congr_left fun j _ => ?_
    cases j <;> rfl
  · intro c hc
    obtain ⟨c', hc', rfl⟩ := List.mem_map.1 hc
    refine fromSpanOne_eq fun x hx => ?_
    obtain ⟨j, hj, hjx⟩ := List.mem_map.1 hx
    cases j with
    | none => cases hjx
    | some y =>
      cases hjx
      exact h y (List.mem_flatten.2 ⟨c', hc', hj⟩)

/-- **C198 (partial)** `TimeSpan.to_arrow` and back, in whatever chunks: the same time spans, if they are whole nanoseconds, at most 2^53 of them. -/
theorem span_round_trip_partial (vals : List (Option Int)) (hv : ∀ x, some x ∈ vals → -2 ^ 53 ≤ x ∧ x ≤ 2 ^ 53) (chunks : List (List (Option Int)))
    (hne : chunks ≠ []) (hc : chunks.flatten = toArrowSpan (vals.map (Option.map fun x : Int => (x : Rat)))) :
    fromArrowSpan false 1 chunks = .ok (vals.map (Option.map fun x : Int => (x : Rat))) := by
  have hflat : chunks.flatten = vals := by
    rw [hc]
    unfold toArrowSpan
    rw [List.map_map]
    conv_rhs => rw [← List.map_id vals]
    refine List.map_congr_left fun j _ => ?_
    cases j <;> simp
  obtain ⟨r, h1, h2⟩ := fromArrowSpan_rows_partial 1 chunks hne (by rw [hflat]; simpa using hv)
  rw [h1, h2, hflat]
  congr 1
  refine List.map_congr_left fun j _ => ?_
  cases j <;> simp

example : ∀ x, some x ∈ [some (5 : Int), none, some (-2 ^ 53)] → -2 ^ 53 ≤ x ∧ x ≤ 2 ^ 53 := by
  intro x hx
  simp at hx
  rcases hx with rfl | rfl <;> norm_num

/-- **C198** violated: half a nanosecond is lost, and a time span of 2^53 + 2 nanoseconds cannot be read, nor can an array without chunks. -/
theorem span_counterexample : toArrowSpan [some (1 / 2)] = [some 0] ∧ fromArrowSpan false 1 [toArrowSpan [some ((2 ^ 53 + 2 : Int) : Rat)]] = .error .arrowInvalid ∧
    fromArrowSpan false 1 [] = .error .valueError := by
  refine ⟨by decide +kernel, ?_, rfl⟩
  have : toArrowSpan [some ((2 ^ 53 + 2 : Int) : Rat)] = [some (2 ^ 53 + 2)] := by
    unfold toArrowSpan
    simp only [List.map_cons, List.map_nil, Option.map_some, Rat.num_intCast, Rat.den_intCast]
    simp
  rw [this]
  rfl

end Verif.Arrow
