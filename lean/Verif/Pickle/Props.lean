import Verif.Pickle.Spec
/-! # Pickled arrays (C372, C373) -/
namespace Verif.Pickle
open Verif.Tz (Zone TimeZone)
variable {B : Type} {comp : Data → B} {dec : B → Data}

theorem load_fast (h : Lossless comp dec) (on : Bool) (d : Data) :
    load dec (reduceFast comp on d) = some (.fast (if on = true ∧ d.length > 0 then d else newFast d) none) := by
  unfold reduceFast
  by_cases hc : on = true ∧ d.length > 0
  · have : (on && decide (d.length > 0)) = true := by simp [hc.1, hc.2]
    rw [if_pos this, if_pos hc]
    simp only [load, h d]
  · have : ¬ (on && decide (d.length > 0)) = true := by
      intro hx
      simp only [Bool.and_eq_true, decide_eq_true_eq] at hx
      exact hc hx
    rw [if_neg this, if_neg hc]
    simp only [load]

theorem load_num (h : Lossless comp dec) (on : Bool) (t : NT) (l : List Int) :
    load dec (reduceFast comp on (.num t l)) = some (.fast (.num t l) none) := by
  rw [load_fast h]
  split <;> rfl

theorem roundTrip_dated (h : Lossless comp dec) (on : Bool) (c : Cls) (t : NT) (l : List Int) (n : Option String) (disp : Nat)
    (tz : TimeZone) (e : List String) :
    roundTrip comp dec on (.dated c t l n disp tz e) = some (rebuild c l ⟨n.getD "unknown", disp, tz.toTz⟩) := by
  unfold roundTrip
  simp only [reduce, load, load_num h]

theorem toUtc_gmt (z : Zone) (l : List Int) : l.map (TimeZone.init .gmt z).toUtc = l := by
  have : ∀ x, (TimeZone.init .gmt z).toUtc x = x := by
    intro x
    simp [TimeZone.toUtc, TimeZone.init]
  rw [List.map_congr_left (g := id) (fun x _ => this x), List.map_id]

theorem fixDst_to (tz : TimeZone) (f : Zone) (hz : ∃ f z z', tz = TimeZone.init f z ∨ tz = (TimeZone.init f z').setTimezone z) (x : Int) :
    tz.fixDst x = (TimeZone.init f tz.toTz).fixDst x := by
  obtain ⟨g, z, z', rfl | rfl⟩ := hz
  · cases z <;> rfl
  · cases z <;> rfl

/-- C372: class, type, elements, display length and zone survive, unless texts are unicode and there are no rows. -/
theorem content_kept (h : Lossless comp dec) (a : Arr) (hm : Made a) (hu : IsUnicode a → rows a ≠ 0) :
    ∃ b, roundTrip comp dec true a = some b ∧ SameContent a b := by
  cases a with
  | fast d n =>
    refine ⟨.fast d none, ?_, .fast d n none⟩
    show load dec (reduceFast comp true d) = _
    rw [load_fast h]
    cases d with
    | num t l => split <;> rfl
    | bytes l => split <;> rfl
    | uni l =>
      have : l.length ≠ 0 := hu trivial
      rw [if_pos ⟨rfl, by simp only [Data.length]; omega⟩]
  | dated c t l n disp tz e =>
    refine ⟨_, roundTrip_dated h true c t l n disp tz e, ?_⟩
    cases c with
    | date =>
      have : t = .int32 := hm
      subst this
      exact .span .date (by decide) _ _ _ _ _ _ _ _ _
    | dateSpan =>
      have : t = .int32 := hm
      subst this
      exact .span .dateSpan (by decide) _ _ _ _ _ _ _ _ _
    | timeSpan =>
      have : t = .float64 := hm
      subst this
      exact .span .timeSpan (by decide) _ _ _ _ _ _ _ _ _
    | nano =>
      obtain ⟨ht, hz⟩ := hm
      subst ht
      have he : rebuild .nano l ⟨n.getD "unknown", disp, tz.toTz⟩ = .dated .nano .int64 l none disp (TimeZone.init .gmt tz.toTz) [] := by
        simp only [rebuild, Cls.dtype, toUtc_gmt]
      rw [he]
      exact .nano _ _ _ _ _ _ _ _ _ rfl (fun x _ => fixDst_to tz .gmt hz x)

/-- C373: what is lost and what is added, for every array. -/
theorem rest_exact (h : Lossless comp dec) (on : Bool) (a b : Arr) (hb : roundTrip comp dec on a = some b) :
    nameOf b = none ∧ (∀ z, originOf b = some z → z = .gmt) ∧
    (extraOf b ≠ [] ↔ ∃ c t l n disp tz e, a = .dated c t l n disp tz e ∧ (c = .date ∨ c = .dateSpan)) := by
  cases a with
  | fast d n =>
    have := load_fast h on d
    have hb' : load dec (reduceFast comp on d) = some b := hb
    rw [this] at hb'
    obtain rfl := Option.some.inj hb'
    refine ⟨rfl, ?_, ?_⟩
    · intro z hz; simp [originOf] at hz
    · simp [extraOf]
  | dated c t l n disp tz e =>
    rw [roundTrip_dated h] at hb
    obtain rfl := Option.some.inj hb
    cases c with
    | date => exact ⟨rfl, fun z hz => by simp [rebuild, originOf] at hz, by simp [rebuild, extraOf]⟩
    | dateSpan => exact ⟨rfl, fun z hz => by simp [rebuild, originOf] at hz, by simp [rebuild, extraOf]⟩
    | timeSpan => exact ⟨rfl, fun z hz => by simp [rebuild, originOf] at hz, by simp [rebuild, extraOf]⟩
    | nano =>
      refine ⟨rfl, fun z hz => ?_, by simp [rebuild, extraOf]⟩
      simp only [rebuild, originOf, TimeZone.init, Option.some.injEq] at hz
      exact hz.symm

/-- C373: for arrays without a name, not Date or DateSpan, and from GMT, nothing else is lost. -/
theorem everything_partial (h : Lossless comp dec) (a : Arr) (hm : Made a) (hu : IsUnicode a → rows a ≠ 0) (hn : nameOf a = none)
    (ho : ∀ z, originOf a = some z → z = .gmt)
    (he : extraOf a = []) (hd : ∀ c t l n disp tz e, a = .dated c t l n disp tz e → c ≠ .date ∧ c ≠ .dateSpan) :
    ∃ b, roundTrip comp dec true a = some b ∧ SameContent a b ∧ nameOf b = nameOf a ∧ originOf b = originOf a ∧ extraOf b = extraOf a := by
  obtain ⟨b, hb, hs⟩ := content_kept h a hm hu
  obtain ⟨h1, h2, h3⟩ := rest_exact h true a b hb
  refine ⟨b, hb, hs, h1.trans hn.symm, ?_, ?_⟩
  · cases hs with
    | fast d n n' => rfl
    | span c hc t l n n' disp tz tz' e e' => cases c <;> first | rfl | exact absurd rfl hc
    | nano t l n n' disp tz tz' e e' hz hw =>
      have e1 := ho _ rfl
      have e2 := h2 _ rfl
      simp only [originOf]
      rw [e1, e2]
  · rw [he]
    by_contra hx
    obtain ⟨c, t, l, n, disp, tz, e, ha, hc⟩ := h3.mp hx
    have := hd c t l n disp tz e ha
    rcases hc with hc | hc
    · exact this.1 hc
    · exact this.2 hc

/-- A name is lost. -/
theorem name_counterexample (h : Lossless comp dec) :
    roundTrip comp dec true (.fast (.num .int64 [1, 2]) (some "price")) = some (.fast (.num .int64 [1, 2]) none) := by
  show load dec (reduceFast comp true _) = _
  rw [load_num h]

/-- No rows of unicode become no rows of bytes. -/
theorem empty_counterexample : roundTrip comp dec true (.fast (.uni []) none) = some (.fast (.bytes []) none) := rfl

/-- With `CompressPickle` off unicode becomes bytes if all characters are ASCII. -/
theorem plain_counterexample : roundTrip comp dec false (.fast (.uni [['a']]) none) = some (.fast (.bytes [['a']]) none) := by
  simp only [roundTrip, reduce, reduceFast, load, Bool.false_and, Bool.false_eq_true, if_false]
  exact congrArg (fun d => some (Arr.fast d none)) (by decide +kernel)

/-- A DateTimeNano made from New York says it came from GMT. -/
theorem origin_counterexample (h : Lossless comp dec) (l : List Int) :
    ∃ b, roundTrip comp dec true (.dated .nano .int64 l none 0 (TimeZone.init .nyc .nyc) []) = some b ∧
    originOf (.dated .nano .int64 l none 0 (TimeZone.init .nyc .nyc) []) = some .nyc ∧ originOf b = some .gmt :=
  ⟨_, roundTrip_dated h true _ _ _ _ _ _ _, rfl, rfl⟩

/-- A Date has attributes afterwards it did not have. -/
theorem attributes_counterexample (h : Lossless comp dec) (l : List Int) :
    ∃ b, roundTrip comp dec true (.dated .date .int32 l none 0 (TimeZone.init .utc .utc) []) = some b ∧
    extraOf b = ["name", "typeid", "version", "instance_vars"] :=
  ⟨_, roundTrip_dated h true _ _ _ _ _ _ _, rfl⟩

/-! ## Concrete cases -/

example : Lossless (id : Data → Data) id := fun _ => rfl
example : Made (.dated .nano .int64 [1577836800000000000, 0] (some "t") 3 ((TimeZone.init .nyc .nyc).setTimezone .tokyo) []) :=
  ⟨rfl, .nyc, .tokyo, .nyc, Or.inr rfl⟩
example : IsUnicode (.fast (.uni [['é']]) none) ∧ rows (.fast (.uni [['é']]) none) = 1 := ⟨trivial, rfl⟩
example : roundTrip (id : Data → Data) id true (.fast (.uni [['a'], []]) none) = some (.fast (.uni [['a'], []]) none) := rfl
example : ∃ b, roundTrip (id : Data → Data) id true (.dated .timeSpan .float64 [5, 7] none 2 (TimeZone.init .utc .utc) []) = some b ∧
    nameOf b = none ∧ extraOf b = [] ∧ rows b = 2 := ⟨_, rfl, rfl, rfl, rfl⟩

end Verif.Pickle
