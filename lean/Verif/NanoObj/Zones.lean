import Verif.NanoObj.Model
import Verif.Tz.Props
/-! # Time zones of DateTimeNano objects over any history of calls (C218, C219, C220) -/
namespace Verif.NanoObj
open Verif.Tz (Zone TimeZone)
open Verif.Arrow (toUtcWrap)

/-- the zones of display of all objects -/
def State.shownZones (st : State) : List Zone := st.objs.map fun o => ((st.zoneOf o).map TimeZone.toTz).getD .utc

/-- what holds after every call -/
structure Inv (st : State) (fs : List Nat) (zs : List Zone) : Prop where
  lenF : fs.length = st.objs.length
  lenZ : zs.length = st.objs.length
  refs : ∀ o ∈ st.objs, o.ref < st.zones.length
  fam : ∀ f ∈ fs, f < fs.length
  same : ∀ (j k : Nat) (o p : Obj), st.objs[j]? = some o → st.objs[k]? = some p → (o.ref = p.ref ↔ fs[j]? = fs[k]?)
  shown : ∀ (j : Nat) (o : Obj), st.objs[j]? = some o → ∃ tz, st.zones[o.ref]? = some tz ∧ zs[j]? = some tz.toTz

theorem array_iff {st : State} {i : Nat} {a : List Int × Nat × TimeZone} :
    st.array i = some a ↔ st.objs[i]? = some (.arr a.1 a.2.1) ∧ st.zones[a.2.1]? = some a.2.2 := by
  unfold State.array
  obtain ⟨v, r, tz⟩ := a
  cases h : st.objs[i]? with
  | none => simp
  | some o =>
    cases o with
    | scal x r' => simp
    | arr v' r' =>
      simp only [Option.map_eq_some_iff, Prod.mk.injEq, Option.some.injEq, Obj.arr.injEq]
      constructor
      · rintro ⟨tz', h1, rfl, rfl, rfl⟩
        exact ⟨⟨rfl, rfl⟩, h1⟩
      · rintro ⟨⟨rfl, rfl⟩, h1⟩
        exact ⟨tz, h1, rfl, rfl, rfl⟩

theorem Inv.alloc {st : State} {fs : List Nat} {zs : List Zone} (h : Inv st fs zs) (vals : List Int) (tz : TimeZone) :
    Inv (st.alloc vals tz) (fs ++ [fs.length]) (zs ++ [tz.toTz]) := by
  have key : ∀ (j : Nat) (o : Obj), (st.objs ++ [Obj.arr vals st.zones.length])[j]? = some o →
      (st.objs[j]? = some o ∧ j < st.objs.length) ∨ (j = st.objs.length ∧ o = .arr vals st.zones.length) := by
    intro j o ho
    rcases Nat.lt_trichotomy j st.objs.length with hj | hj | hj
    · rw [List.getElem?_append_left hj] at ho
      exact .inl ⟨ho, hj⟩
    · subst hj
      rw [List.getElem?_append_right (Nat.le_refl _), Nat.sub_self] at ho
      exact .inr ⟨rfl, by simpa using ho.symm⟩
    · rw [List.getElem?_eq_none (by rw [List.length_append, List.length_singleton]; omega)] at ho
      cases ho
  have hold : ∀ (j : Nat) (o : Obj), st.objs[j]? = some o → o.ref < st.zones.length := fun j o ho => h.refs o (List.mem_of_getElem? ho)
  have hfs : ∀ (j : Nat), j < st.objs.length → (fs ++ [fs.length])[j]? = fs[j]? ∧ ∃ f, fs[j]? = some f ∧ f < fs.length := by
    intro j hj
    have hj' : j < fs.length := by rw [h.lenF]; exact hj
    exact ⟨List.getElem?_append_left hj', fs[j], List.getElem?_eq_getElem hj', h.fam _ (List.getElem_mem _)⟩
  have hlast : (fs ++ [fs.length])[st.objs.length]? = some fs.length := by rw [← h.lenF]; simp
  constructor
  · show (fs ++ [fs.length]).length = (st.objs ++ [_]).length
    simp [h.lenF]
  · show (zs ++ [tz.toTz]).length = (st.objs ++ [_]).length
    simp [h.lenZ]
  · intro o ho
    show o.ref < (st.zones ++ [tz]).length
    rw [List.length_append, List.length_singleton]
    rcases List.mem_append.1 ho with ho | ho
    · have := h.refs o ho; omega
    · rw [List.mem_singleton.1 ho]; exact Nat.lt_succ_self _
  · intro f hf
    rw [List.length_append, List.length_singleton]
    rcases List.mem_append.1 hf with hf | hf
    · have := h.fam f hf; omega
    · rw [List.mem_singleton.1 hf]; omega
  · intro j k o p hj hk
    rcases key j o hj with ⟨hj, hj'⟩ | ⟨rfl, rfl⟩ <;> rcases key k p hk with ⟨hk, hk'⟩ | ⟨rfl, rfl⟩
    · rw [(hfs j hj').1, (hfs k hk').1]
      exact h.same j k o p hj hk
    · obtain ⟨h1, f, h2, h3⟩ := hfs j hj'
      rw [h1, h2, hlast]
      have := hold j o hj
      constructor
      · intro e; rw [e] at this; exact absurd this (Nat.lt_irrefl _)
      · intro e; cases e; exact absurd h3 (Nat.lt_irrefl _)
    · obtain ⟨h1, f, h2, h3⟩ := hfs k hk'
      rw [h1, h2, hlast]
      have := hold k p hk
      constructor
      · intro e; rw [← e] at this; exact absurd this (Nat.lt_irrefl _)
      · intro e; cases e; exact absurd h3 (Nat.lt_irrefl _)
    · simp
  · intro j o ho
    rcases key j o ho with ⟨hj, hj'⟩ | ⟨rfl, rfl⟩
    · obtain ⟨tz', h1, h2⟩ := h.shown j o hj
      refine ⟨tz', ?_, ?_⟩
      · show (st.zones ++ [tz])[o.ref]? = _
        rw [List.getElem?_append_left (hold j o hj)]; exact h1
      · rw [List.getElem?_append_left (by rw [h.lenZ]; exact hj')]; exact h2
    · refine ⟨tz, ?_, ?_⟩
      · show (st.zones ++ [tz])[st.zones.length]? = _
        simp
      · rw [← h.lenZ]; simp

theorem Inv.share {st : State} {fs : List Nat} {zs : List Zone} (h : Inv st fs zs) {i : Nat} {o : Obj} (hi : st.objs[i]? = some o) (p : Obj)
    (hp : p.ref = o.ref) : Inv (st.share p) (fs ++ [fs.getD i 0]) (zs ++ [zs.getD i .utc]) := by
  have hil : i < st.objs.length := (List.getElem?_eq_some_iff.1 hi).1
  have hfi : fs[i]? = some (fs.getD i 0) := by
    have : i < fs.length := by rw [h.lenF]; exact hil
    rw [List.getD_eq_getElem?_getD, List.getElem?_eq_getElem this]; rfl
  have hzi : zs[i]? = some (zs.getD i .utc) := by
    have : i < zs.length := by rw [h.lenZ]; exact hil
    rw [List.getD_eq_getElem?_getD, List.getElem?_eq_getElem this]; rfl
  -- the new object stands for the old one
  have key : ∀ (j : Nat) (q : Obj), (st.objs ++ [p])[j]? = some q →
      ∃ (j' : Nat) (q' : Obj), st.objs[j']? = some q' ∧ q'.ref = q.ref ∧ (fs ++ [fs.getD i 0])[j]? = fs[j']? ∧ (zs ++ [zs.getD i .utc])[j]? = zs[j']? := by
    intro j q hq
    rcases Nat.lt_trichotomy j st.objs.length with hj | hj | hj
    · rw [List.getElem?_append_left hj] at hq
      exact ⟨j, q, hq, rfl, List.getElem?_append_left (by rw [h.lenF]; exact hj), List.getElem?_append_left (by rw [h.lenZ]; exact hj)⟩
    · subst hj
      rw [List.getElem?_append_right (Nat.le_refl _), Nat.sub_self] at hq
      have : q = p := by simpa using hq.symm
      subst this
      refine ⟨i, o, hi, hp.symm, ?_, ?_⟩
      · rw [hfi, ← h.lenF]; simp
      · rw [hzi, ← h.lenZ]; simp
    · rw [List.getElem?_eq_none (by rw [List.length_append, List.length_singleton]; omega)] at hq
      cases hq
  constructor
  · show (fs ++ [fs.getD i 0]).length = (st.objs ++ [p]).length
    simp [h.lenF]
  · show (zs ++ [zs.getD i .utc]).length = (st.objs ++ [p]).length
    simp [h.lenZ]
  · intro q hq
    rcases List.mem_append.1 hq with hq | hq
    · exact h.refs q hq
    · rw [List.mem_singleton.1 hq, hp]; exact h.refs o (List.mem_of_getElem? hi)
  · intro f hf
    rw [List.length_append, List.length_singleton]
    rcases List.mem_append.1 hf with hf | hf
    · have := h.fam f hf; omega
    · rw [List.mem_singleton.1 hf]
      have := h.fam _ (List.mem_of_getElem? hfi); omega
  · intro j k q r hj hk
    obtain ⟨j', q', h1, h2, h3, _⟩ := key j q hj
    obtain ⟨k', r', g1, g2, g3, _⟩ := key k r hk
    rw [h3, g3, ← h2, ← g2]
    exact h.same j' k' q' r' h1 g1
  · intro j q hq
    obtain ⟨j', q', h1, h2, _, h4⟩ := key j q hq
    obtain ⟨tz, g1, g2⟩ := h.shown j' q' h1
    exact ⟨tz, by rw [← h2]; exact g1, by rw [h4]; exact g2⟩

theorem Inv.set {st : State} {fs : List Nat} {zs : List Zone} (h : Inv st fs zs) {i : Nat} {o : Obj} {tz : TimeZone} (hi : st.objs[i]? = some o)
    (htz : st.zones[o.ref]? = some tz) (z : Zone) : Inv ⟨st.zones.set o.ref (tz.setTimezone z), st.objs⟩ fs (setFamily fs i z zs) := by
  have hil : i < st.objs.length := (List.getElem?_eq_some_iff.1 hi).1
  have hfi : fs[i]? = some (fs.getD i 0) := by
    have : i < fs.length := by rw [h.lenF]; exact hil
    rw [List.getD_eq_getElem?_getD, List.getElem?_eq_getElem this]; rfl
  refine ⟨h.lenF, ?_, ?_, h.fam, h.same, ?_⟩
  · unfold setFamily
    rw [List.length_zipWith, h.lenF, h.lenZ, Nat.min_self]
  · intro q hq
    show q.ref < (st.zones.set _ _).length
    rw [List.length_set]
    exact h.refs q hq
  · intro j q hq
    obtain ⟨tz', h1, h2⟩ := h.shown j q hq
    have hj : j < fs.length := by rw [h.lenF]; exact (List.getElem?_eq_some_iff.1 hq).1
    have hfj : fs[j]? = some fs[j] := List.getElem?_eq_getElem hj
    have hz : (setFamily fs i z zs)[j]? = some (if fs[j] = fs.getD i 0 then z else tz'.toTz) := by
      unfold setFamily
      rw [List.getElem?_zipWith, hfj, h2]
    have hs := h.same j i q o hq hi
    rw [hfj, hfi, Option.some.injEq] at hs
    by_cases hr : q.ref = o.ref
    · refine ⟨tz.setTimezone z, ?_, ?_⟩
      · show (st.zones.set o.ref _)[q.ref]? = _
        rw [hr, List.getElem?_set_self (h.refs o (List.mem_of_getElem? hi))]
      · rw [hz, if_pos (hs.1 hr)]; rfl
    · refine ⟨tz', ?_, ?_⟩
      · show (st.zones.set o.ref _)[q.ref]? = _
        rw [List.getElem?_set_ne (Ne.symm hr)]; exact h1
      · rw [hz, if_neg (fun e => hr (hs.2 e))]

theorem zone_at {st : State} {fs : List Nat} {zs : List Zone} (h : Inv st fs zs) {i : Nat} {a : List Int × Nat × TimeZone} (ha : st.array i = some a) :
    zs.getD i .utc = a.2.2.toTz := by
  obtain ⟨h1, h2⟩ := array_iff.1 ha
  obtain ⟨tz, h3, h4⟩ := h.shown i _ h1
  have : tz = a.2.2 := by
    have h5 : st.zones[a.2.1]? = some tz := h3
    rw [h2] at h5
    exact (Option.some.inj h5).symm
  rw [List.getD_eq_getElem?_getD, h4, this]; rfl

theorem arrays_cons {st : State} {j : Nat} {js : List Nat} {as : List (List Int × Nat × TimeZone)} (h : st.arrays (j :: js) = some as) :
    ∃ a rest, as = a :: rest ∧ st.array j = some a ∧ st.arrays js = some rest := by
  unfold State.arrays at h
  rw [List.mapM_cons] at h
  cases ha : st.array j with
  | none => rw [ha] at h; cases h
  | some a =>
    cases hr : List.mapM st.array js with
    | none => rw [ha, hr] at h; cases h
    | some rest =>
      rw [ha, hr] at h
      exact ⟨a, rest, (Option.some.inj h).symm, rfl, hr⟩

theorem stack_iff {st st' : State} {a : List Int × Nat × TimeZone} {rest : List (List Int × Nat × TimeZone)} :
    st.stack (a :: rest) = some st' ↔
      (∀ b ∈ rest, b.2.2.toTz = a.2.2.toTz) ∧ st' = st.alloc ((a :: rest).flatMap fun b => b.1) a.2.2.copy := by
  have h : (rest.all fun b => decide (b.2.2.toTz = a.2.2.toTz)) = true ↔ ∀ b ∈ rest, b.2.2.toTz = a.2.2.toTz := by simp
  show (if (rest.all fun b => decide (b.2.2.toTz = a.2.2.toTz)) = true then some (st.alloc ((a :: rest).flatMap fun b => b.1) a.2.2.copy) else none) = some st' ↔ _
  by_cases hc : (rest.all fun b => decide (b.2.2.toTz = a.2.2.toTz)) = true
  · rw [if_pos hc, Option.some.injEq]
    exact ⟨fun e => ⟨h.1 hc, e.symm⟩, fun e => e.2.symm⟩
  · rw [if_neg hc]
    exact ⟨(fun e => by cases e), fun e => absurd (h.2 e.1) hc⟩

theorem Inv.step {st st' : State} {fs : List Nat} {zs : List Zone} (h : Inv st fs zs) {c : Call} (hs : st.step c = some st') :
    Inv st' (sharedStep (fs, zs) c).1 (sharedStep (fs, zs) c).2 := by
  cases c with
  | make vals f t =>
    cases hs
    exact h.alloc _ (TimeZone.init f t)
  | view i =>
    obtain ⟨a, ha, rfl⟩ := Option.map_eq_some_iff.1 hs
    exact h.share (array_iff.1 ha).1 (.arr a.1 a.2.1) rfl
  | index i g =>
    obtain ⟨a, ha, rfl⟩ := Option.map_eq_some_iff.1 hs
    have := h.alloc (g a.1) a.2.2.copy
    rw [show a.2.2.copy.toTz = zs.getD i .utc from (zone_at h ha).symm] at this
    exact this
  | item i k =>
    obtain ⟨a, ha, hx⟩ := Option.bind_eq_some_iff.1 hs
    obtain ⟨x, _, rfl⟩ := Option.map_eq_some_iff.1 hx
    exact h.share (array_iff.1 ha).1 (.scal x a.2.1) rfl
  | derive i g =>
    obtain ⟨a, ha, rfl⟩ := Option.map_eq_some_iff.1 hs
    have := h.alloc ((g a.1).map (toUtcWrap (TimeZone.init .gmt a.2.2.toTz))) (TimeZone.init .gmt a.2.2.toTz)
    rw [show (TimeZone.init .gmt a.2.2.toTz).toTz = zs.getD i .utc from (zone_at h ha).symm] at this
    exact this
  | astz i z =>
    obtain ⟨a, ha, rfl⟩ := Option.map_eq_some_iff.1 hs
    exact h.alloc _ (TimeZone.init .gmt z)
  | setTz i z =>
    obtain ⟨a, ha, rfl⟩ := Option.map_eq_some_iff.1 hs
    obtain ⟨h1, h2⟩ := array_iff.1 ha
    exact h.set h1 h2 z
  | hstack js =>
    match js, hs with
    | [], hs => cases hs
    | [i], hs =>
      obtain ⟨a, ha, rfl⟩ := Option.map_eq_some_iff.1 hs
      exact h.share (array_iff.1 ha).1 (.arr a.1 a.2.1) rfl
    | i :: j :: js, hs =>
      obtain ⟨as, ha, hx⟩ := Option.bind_eq_some_iff.1 hs
      obtain ⟨a, rest, rfl, hi, _⟩ := arrays_cons ha
      obtain ⟨_, rfl⟩ := stack_iff.1 hx
      have := h.alloc ((a :: rest).flatMap fun b => b.1) a.2.2.copy
      rw [show a.2.2.copy.toTz = zs.getD i .utc from (zone_at h hi).symm] at this
      exact this

theorem inv_start : Inv start [] [] := by
  constructor
  · rfl
  · rfl
  · intro o ho; cases ho
  · intro f hf; cases hf
  · intro j k o p hj; cases hj
  · intro j o hj; cases hj

theorem Inv.run {st st' : State} {fs : List Nat} {zs : List Zone} (h : Inv st fs zs) {cs : List Call} (hs : st.run cs = some st') :
    Inv st' (cs.foldl sharedStep (fs, zs)).1 (cs.foldl sharedStep (fs, zs)).2 := by
  induction cs generalizing st fs zs with
  | nil => cases hs; exact h
  | cons c cs ih =>
    obtain ⟨s, h1, h2⟩ := Option.bind_eq_some_iff.1 hs
    exact ih (h.step h1) h2

theorem Inv.zones {st : State} {fs : List Nat} {zs : List Zone} (h : Inv st fs zs) : st.shownZones = zs := by
  apply List.ext_getElem?
  intro j
  unfold State.shownZones
  rw [List.getElem?_map]
  cases ho : st.objs[j]? with
  | none =>
    rw [List.getElem?_eq_none_iff] at ho
    rw [List.getElem?_eq_none (by rw [h.lenZ]; exact ho)]
    rfl
  | some o =>
    obtain ⟨tz, h1, h2⟩ := h.shown j o ho
    rw [h2]
    show some (((st.zones[o.ref]?).map TimeZone.toTz).getD .utc) = _
    rw [h1]; rfl

theorem shared_fst (cs : List Call) (fs : List Nat) (zs : List Zone) : (cs.foldl sharedStep (fs, zs)).1 = cs.foldl familyStep fs := by
  induction cs generalizing fs zs with
  | nil => rfl
  | cons c cs ih => exact ih _ _

/-- **C219 (partial)** After any calls, the zone of display of every object is the one that follows if `set_timezone` changes all the family
of an object: the views and scalars taken from it, what it was itself taken from, and nothing else. -/
theorem zones_exact (calls : List Call) (st : State) (h : start.run calls = some st) : st.shownZones = sharedZones calls :=
  (inv_start.run h).zones

theorem set_alone {fs : List Nat} {zs : List Zone} (hl : fs.length = zs.length) {i : Nat} (hi : i < fs.length) (z : Zone)
    (ha : ∀ j ≠ i, fs[j]? ≠ fs[i]?) : setFamily fs i z zs = zs.set i z := by
  apply List.ext_getElem?
  intro j
  unfold setFamily
  have hfi : fs[i]? = some (fs.getD i 0) := by
    rw [List.getD_eq_getElem?_getD, List.getElem?_eq_getElem hi]; rfl
  rw [List.getElem?_zipWith, List.getElem?_set]
  by_cases hj : i = j
  · subst hj
    rw [if_pos rfl, if_pos (by omega), hfi, List.getElem?_eq_getElem (show i < zs.length by omega)]
    simp
  · rw [if_neg hj]
    have := ha j (Ne.symm hj)
    rw [hfi] at this
    by_cases hjl : j < fs.length
    · rw [List.getElem?_eq_getElem hjl] at this ⊢
      rw [List.getElem?_eq_getElem (show j < zs.length by omega)]
      have hne : fs[j] ≠ fs.getD i 0 := fun e => this (by rw [e])
      simp only [if_neg hne]
    · rw [List.getElem?_eq_none (by omega), List.getElem?_eq_none (by omega)]

/-- **C219 (partial)** If `set_timezone` is only called on objects of which no view and no scalar has been taken, and which are not one
themselves, it changes that object alone, and every other object is displayed as the one that it comes from was. -/
theorem zones_partial (calls : List Call) (st : State) (h : start.run calls = some st) (ha : Alone calls) : st.shownZones = ownZones calls := by
  rw [zones_exact calls st h]
  unfold sharedZones ownZones
  have key : ∀ (rest before : List Call) (s : State) (fs : List Nat) (zs : List Zone), calls = before ++ rest → families before = fs → Inv s fs zs →
      s.run rest = some st → (rest.foldl sharedStep (fs, zs)).2 = rest.foldl zoneStep zs := by
    intro rest
    induction rest with
    | nil => intro _ _ _ _ _ _ _ _; rfl
    | cons c rest ih =>
      intro before s fs zs he hf hI hr
      obtain ⟨s', h1, h2⟩ := Option.bind_eq_some_iff.1 hr
      have hstep : (sharedStep (fs, zs) c).2 = zoneStep zs c := by
        cases c with
        | setTz i z =>
          obtain ⟨a, ha', _⟩ := Option.map_eq_some_iff.1 h1
          have hi := (array_iff.1 ha').1
          apply set_alone (by rw [hI.lenF, hI.lenZ])
          · rw [hI.lenF]; exact (List.getElem?_eq_some_iff.1 hi).1
          · rw [← hf]; exact ha before i z rest he
        | _ => rfl
      have := ih (before ++ [c]) s' (sharedStep (fs, zs) c).1 (sharedStep (fs, zs) c).2 (by rw [he]; simp) (by
        unfold families at hf ⊢
        rw [List.foldl_append, hf]; rfl) (hI.step h1) h2
      rw [List.foldl_cons, List.foldl_cons, ← hstep]
      exact this
  exact key calls [] start [] [] rfl rfl inv_start h

example : Alone [.make [5] .utc .nyc, .index 0 id, .setTz 1 .tokyo] := by
  intro before i z after h j hj
  match before, h with
  | [], h => cases h
  | [_], h => cases h
  | [_, _], h =>
    cases h
    match j with
    | 0 => decide
    | 1 => exact absurd rfl hj
    | j + 2 => simp [families, familyStep]
  | _ :: _ :: _ :: b, h =>
    have := congrArg List.length h
    simp at this

/-- **C219** violated: a scalar is taken from an array, then the zone of the array is set; the scalar, which should be displayed in New
York, is displayed in Tokyo. The same for a view, and the array changes with the view. -/
theorem zones_counterexample :
    (start.run [.make [5] .utc .nyc, .item 0 0, .setTz 0 .tokyo]).map State.shownZones = some [.tokyo, .tokyo] ∧
    ownZones [.make [5] .utc .nyc, .item 0 0, .setTz 0 .tokyo] = [.tokyo, .nyc] ∧
    (start.run [.make [5] .utc .nyc, .view 0, .setTz 1 .tokyo]).map State.shownZones = some [.tokyo, .tokyo] ∧
    ownZones [.make [5] .utc .nyc, .view 0, .setTz 1 .tokyo] = [.nyc, .tokyo] := by
  refine ⟨by decide +kernel, by decide, by decide +kernel, by decide⟩

/-! ## the clock of an object is that of its zone -/

/-- every `TimeZone` object is one made for its zones -/
def Made (st : State) : Prop := ∀ tz ∈ st.zones, tz = TimeZone.init tz.fromTz tz.toTz

theorem made_alloc {st : State} (h : Made st) (vals : List Int) {tz : TimeZone} (ht : tz = TimeZone.init tz.fromTz tz.toTz) : Made (st.alloc vals tz) := by
  intro t hm
  rcases List.mem_append.1 hm with hm | hm
  · exact h t hm
  · rw [List.mem_singleton.1 hm]; exact ht

theorem array_mem {st : State} {i : Nat} {a : List Int × Nat × TimeZone} (ha : st.array i = some a) : a.2.2 ∈ st.zones :=
  List.mem_of_getElem? (array_iff.1 ha).2

theorem made_step {st st' : State} (h : Made st) {c : Call} (hs : st.step c = some st') : Made st' := by
  cases c with
  | make vals f t => cases hs; exact made_alloc h _ rfl
  | view i => obtain ⟨a, _, rfl⟩ := Option.map_eq_some_iff.1 hs; exact h
  | index i g =>
    obtain ⟨a, ha, rfl⟩ := Option.map_eq_some_iff.1 hs
    exact made_alloc h _ (h _ (array_mem ha))
  | item i k =>
    obtain ⟨a, _, hx⟩ := Option.bind_eq_some_iff.1 hs
    obtain ⟨x, _, rfl⟩ := Option.map_eq_some_iff.1 hx
    exact h
  | derive i g => obtain ⟨a, _, rfl⟩ := Option.map_eq_some_iff.1 hs; exact made_alloc h _ rfl
  | astz i z => obtain ⟨a, _, rfl⟩ := Option.map_eq_some_iff.1 hs; exact made_alloc h _ rfl
  | setTz i z =>
    obtain ⟨a, ha, rfl⟩ := Option.map_eq_some_iff.1 hs
    intro t ht
    rcases List.mem_or_eq_of_mem_set ht with ht | rfl
    · exact h t ht
    · have := h _ (array_mem ha)
      rw [this, Tz.setTimezone_eq]
      rfl
  | hstack js =>
    match js, hs with
    | [], hs => cases hs
    | [i], hs => obtain ⟨a, _, rfl⟩ := Option.map_eq_some_iff.1 hs; exact h
    | i :: j :: js, hs =>
      obtain ⟨as, ha, hx⟩ := Option.bind_eq_some_iff.1 hs
      obtain ⟨a, rest, rfl, hi, _⟩ := arrays_cons ha
      obtain ⟨_, rfl⟩ := stack_iff.1 hx
      exact made_alloc h _ (h _ (array_mem hi))

theorem made_run {st st' : State} (h : Made st) {cs : List Call} (hs : st.run cs = some st') : Made st' := by
  induction cs generalizing st with
  | nil => cases hs; exact h
  | cons c cs ih =>
    obtain ⟨s, h1, h2⟩ := Option.bind_eq_some_iff.1 hs
    exact ih (made_step h h1) h2

/-- **C218** After any calls, every object has a clock, and it is the wall clock of its zone of display, whatever zones it was displayed in
before (except at the instants at which the clocks are changed, C33). -/
theorem display_correct (calls : List Call) (st : State) (h : start.run calls = some st) (j : Nat) (o : Obj) (ho : st.objs[j]? = some o)
    (z : Zone) (hz : st.shownZones[j]? = some z) (hs : ∀ x ∈ o.vals, ¬ Tz.StartsDst z x ∧ ¬ Tz.EndsDst z x) :
    st.display o = some (o.vals.map (Tz.wall z)) := by
  obtain ⟨tz, h1, _⟩ := (inv_start.run h).shown j o ho
  have hm : tz = TimeZone.init tz.fromTz tz.toTz := made_run (by intro t ht; cases ht) h tz (List.mem_of_getElem? h1)
  have hz' : z = tz.toTz := by
    unfold State.shownZones at hz
    rw [List.getElem?_map, ho] at hz
    have h2 : ((st.zones[o.ref]?).map TimeZone.toTz).getD .utc = z := Option.some.inj hz
    rw [h1] at h2
    exact h2.symm
  subst hz'
  unfold State.display State.zoneOf
  rw [h1]
  show some (o.vals.map tz.fixDst) = _
  congr 1
  apply List.map_congr_left
  intro x hx
  rw [hm]
  exact (Tz.fixDst_exact _ _ x).1 (hs x hx).1 (hs x hx).2

/-! ## instants -/

theorem objs_step {st st' : State} {c : Call} (hs : st.step c = some st') : ∃ new, st'.objs = st.objs ++ new := by
  cases c with
  | make vals f t => cases hs; exact ⟨_, rfl⟩
  | view i => obtain ⟨a, _, rfl⟩ := Option.map_eq_some_iff.1 hs; exact ⟨_, rfl⟩
  | index i g => obtain ⟨a, _, rfl⟩ := Option.map_eq_some_iff.1 hs; exact ⟨_, rfl⟩
  | item i k =>
    obtain ⟨a, _, hx⟩ := Option.bind_eq_some_iff.1 hs
    obtain ⟨x, _, rfl⟩ := Option.map_eq_some_iff.1 hx
    exact ⟨_, rfl⟩
  | derive i g => obtain ⟨a, _, rfl⟩ := Option.map_eq_some_iff.1 hs; exact ⟨_, rfl⟩
  | astz i z => obtain ⟨a, _, rfl⟩ := Option.map_eq_some_iff.1 hs; exact ⟨_, rfl⟩
  | setTz i z => obtain ⟨a, _, rfl⟩ := Option.map_eq_some_iff.1 hs; exact ⟨[], by simp⟩
  | hstack js =>
    match js, hs with
    | [], hs => cases hs
    | [i], hs => obtain ⟨a, _, rfl⟩ := Option.map_eq_some_iff.1 hs; exact ⟨_, rfl⟩
    | i :: j :: js, hs =>
      obtain ⟨as, ha, hx⟩ := Option.bind_eq_some_iff.1 hs
      obtain ⟨a, rest, rfl, hi, _⟩ := arrays_cons ha
      obtain ⟨_, rfl⟩ := stack_iff.1 hx
      exact ⟨_, rfl⟩

/-- **C218** No call changes the instants of an object that there was before. -/
theorem instants_kept (st st' : State) (calls : List Call) (h : st.run calls = some st') (j : Nat) (o : Obj) (ho : st.objs[j]? = some o) :
    st'.objs[j]? = some o := by
  induction calls generalizing st with
  | nil => cases h; exact ho
  | cons c cs ih =>
    obtain ⟨s, h1, h2⟩ := Option.bind_eq_some_iff.1 h
    apply ih s h2
    obtain ⟨new, hn⟩ := objs_step h1
    rw [hn, List.getElem?_append_left (List.getElem?_eq_some_iff.1 ho).1]
    exact ho

end Verif.NanoObj
