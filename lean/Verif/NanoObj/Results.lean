import Verif.NanoObj.Zones
import Verif.Pandas.Times
/-! # Instants of results: astimezone, arithmetic, hstack (C218, C220) -/
namespace Verif.NanoObj
open Verif.Tz (Zone TimeZone)
open Verif.Arrow (toUtcWrap)
open Verif.Pandas (Int64)

theorem wrap_id {x : Int} (h : Int64 x) : Arrow.wrap 3 x = x := by
  have := Pandas.toUtcWrap_utc .utc h
  unfold toUtcWrap at this
  rwa [show (TimeZone.init .utc .utc).toUtc x = x from rfl] at this

theorem toUtcWrap_gmt (z : Zone) {x : Int} (h : Int64 x) : toUtcWrap (TimeZone.init .gmt z) x = x := by
  unfold toUtcWrap
  have : (TimeZone.init .gmt z).toUtc x = x := by
    unfold TimeZone.toUtc
    rw [if_neg]
    simp [TimeZone.init]
  rw [this]
  exact wrap_id h

/-- the last object -/
def State.last (st : State) : Option Obj := st.objs.getLast?

theorem last_alloc (st : State) (vals : List Int) (tz : TimeZone) : (st.alloc vals tz).last = some (.arr vals st.zones.length) := by
  unfold State.last State.alloc
  simp

/-- **C218** `astimezone` gives an array with the same instants, and arithmetic, `min` and so on give the instants that were calculated:
nothing is converted a second time. -/
theorem results_kept (st st' : State) (i : Nat) (o : Obj) (ho : st.objs[i]? = some o) :
    (∀ z, st.step (.astz i z) = some st' → (∀ x ∈ o.vals, Int64 x) → ∃ o', st'.last = some o' ∧ o'.vals = o.vals) ∧
    (∀ g, st.step (.derive i g) = some st' → (∀ x ∈ g o.vals, Int64 x) → ∃ o', st'.last = some o' ∧ o'.vals = g o.vals) ∧
    (∀ g, st.step (.index i g) = some st' → ∃ o', st'.last = some o' ∧ o'.vals = g o.vals) := by
  have hv : ∀ a, st.array i = some a → o.vals = a.1 := by
    intro a ha
    have := (array_iff.1 ha).1
    rw [ho] at this
    cases Option.some.inj this
    rfl
  have hid : ∀ (z : Zone) (l : List Int), (∀ x ∈ l, Int64 x) → l.map (toUtcWrap (TimeZone.init .gmt z)) = l := by
    intro z l hl
    conv_rhs => rw [← List.map_id l]
    exact List.map_congr_left fun x hx => toUtcWrap_gmt z (hl x hx)
  refine ⟨fun z hs hb => ?_, fun g hs hb => ?_, fun g hs => ?_⟩
  · obtain ⟨a, ha, rfl⟩ := Option.map_eq_some_iff.1 hs
    rw [hv a ha] at hb ⊢
    exact ⟨_, last_alloc _ _ _, hid z _ hb⟩
  · obtain ⟨a, ha, rfl⟩ := Option.map_eq_some_iff.1 hs
    rw [hv a ha] at hb ⊢
    exact ⟨_, last_alloc _ _ _, hid _ _ hb⟩
  · obtain ⟨a, ha, rfl⟩ := Option.map_eq_some_iff.1 hs
    rw [hv a ha]
    exact ⟨_, last_alloc _ _ _, rfl⟩

example : ∀ x ∈ (Obj.arr [1577836800000000000, 0] 0).vals, Int64 x := by unfold Pandas.Int64; decide

/-- the object is an array -/
def Obj.IsArr : Obj → Prop
  | .arr _ _ => True
  | .scal _ _ => False

theorem array_some {st : State} {fs : List Nat} {zs : List Zone} (hI : Inv st fs zs) {i : Nat} {o : Obj} (ho : st.objs[i]? = some o) (ha : o.IsArr) :
    ∃ a, st.array i = some a ∧ a.1 = o.vals ∧ zs[i]? = some a.2.2.toTz := by
  obtain ⟨tz, h1, h2⟩ := hI.shown i o ho
  cases o with
  | scal _ _ => exact ha.elim
  | arr v r => exact ⟨(v, r, tz), array_iff.2 ⟨ho, h1⟩, rfl, h2⟩

theorem arrays_some {st : State} {fs : List Nat} {zs : List Zone} (hI : Inv st fs zs) (js : List Nat) (os : List Obj)
    (h : List.Forall₂ (fun j o => st.objs[j]? = some o ∧ o.IsArr) js os) :
    ∃ as, st.arrays js = some as ∧ as.map (·.1) = os.map Obj.vals ∧ List.Forall₂ (fun j a => zs[j]? = some a.2.2.toTz) js as := by
  induction h with
  | nil => exact ⟨[], rfl, rfl, List.Forall₂.nil⟩
  | @cons j o js os h1 _ ih =>
    obtain ⟨as, h2, h3, h4⟩ := ih
    obtain ⟨a, h5, h6, h7⟩ := array_some hI h1.1 h1.2
    refine ⟨a :: as, ?_, ?_, List.Forall₂.cons h7 h4⟩
    · unfold State.arrays at h2 ⊢
      rw [List.mapM_cons, h5, h2]; rfl
    · rw [List.map_cons, List.map_cons, h3, h6]

/-- **C220** After any calls, `hstack` of arrays raises exactly if not all are displayed in the same zone; otherwise the result has the
instants of all, in order. Its zone is theirs by `zones_exact`. -/
theorem hstack_correct (calls : List Call) (st : State) (h : start.run calls = some st) (j0 : Nat) (js : List Nat) (o0 : Obj) (os : List Obj)
    (ho : List.Forall₂ (fun j o => st.objs[j]? = some o ∧ o.IsArr) (j0 :: js) (o0 :: os)) :
    ((∃ st', st.step (.hstack (j0 :: js)) = some st') ↔ ∀ j ∈ js, st.shownZones[j]? = st.shownZones[j0]?) ∧
    ∀ st', st.step (.hstack (j0 :: js)) = some st' → ∃ o', st'.last = some o' ∧ o'.vals = (o0 :: os).flatMap Obj.vals := by
  have hI := inv_start.run h
  have hz := hI.zones
  rw [hz]
  obtain ⟨as, h1, h2, h3⟩ := arrays_some hI _ _ ho
  cases js with
  | nil =>
    cases ho with
    | cons ho1 ho2 =>
      cases ho2
      obtain ⟨a, g1, g2, g3⟩ := array_some hI ho1.1 ho1.2
      have hs : st.step (.hstack [j0]) = some (st.share (.arr a.1 a.2.1)) := by
        show (st.array j0).map _ = _
        rw [g1]; rfl
      rw [hs]
      refine ⟨⟨fun _ j hj => (by cases hj), fun _ => ⟨_, rfl⟩⟩, ?_⟩
      intro st' he
      cases he
      refine ⟨.arr a.1 a.2.1, ?_, ?_⟩
      · unfold State.last State.share; simp
      · show a.1 = _
        rw [g2]; simp
  | cons j1 js =>
    have hs : st.step (.hstack (j0 :: j1 :: js)) = st.stack as := by
      show (st.arrays (j0 :: j1 :: js)).bind _ = _
      rw [h1]; rfl
    rw [hs]
    cases h3 with
    | @cons _ a _ rest h4 h5 =>
      have hall : (∀ b ∈ rest, b.2.2.toTz = a.2.2.toTz) ↔
          ∀ j ∈ j1 :: js, (calls.foldl sharedStep ([], [])).2[j]? = (calls.foldl sharedStep ([], [])).2[j0]? := by
        rw [h4]
        generalize j1 :: js = l at h5
        clear h1 h2 hs ho
        induction h5 with
        | nil => exact ⟨(fun _ j hj => by cases hj), (fun _ b hb => by cases hb)⟩
        | cons g1 _ ih =>
          rw [List.forall_mem_cons, List.forall_mem_cons, ih, g1, Option.some.injEq]
      refine ⟨?_, ?_⟩
      · rw [← hall]
        constructor
        · rintro ⟨st', he⟩; exact (stack_iff.1 he).1
        · intro he; exact ⟨_, stack_iff.2 ⟨he, rfl⟩⟩
      · intro st' he
        obtain ⟨_, rfl⟩ := stack_iff.1 he
        refine ⟨_, last_alloc _ _ _, ?_⟩
        show (a :: rest).flatMap (fun b => b.1) = _
        rw [List.flatMap_def, List.flatMap_def, h2]

end Verif.NanoObj
