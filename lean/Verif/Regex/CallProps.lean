import Verif.Regex.Call
import Mathlib.Data.List.Basic
/-! # Calls of the decorated string functions (C304) -/
namespace Verif.Regex
open Verif.Items Spec
variable {V : Type}

theorem boundOf_nil (ps : List (Param V)) (kw : Dict String V) :
    boundOf ps [] kw = ps.map fun p => (p.name, (kw.get p.name).or p.default) := by
  induction ps with
  | nil => rfl
  | cons p ps ih => simp [boundOf, ih]

theorem boundOf_append (A B : List (Param V)) (vs : List V) (kw : Dict String V) (h : A.length = vs.length) :
    boundOf (A ++ B) vs kw = (A.zip vs).map (fun e => (e.1.name, some e.2)) ++ boundOf B [] kw := by
  induction A generalizing vs with
  | nil =>
    obtain rfl : vs = [] := List.length_eq_zero_iff.1 h.symm
    rfl
  | cons a A ih =>
    cases vs with
    | nil => simp at h
    | cons v vs => simp [boundOf, ih vs (by simpa using h)]

/-- the values of the parameters, from `B` by keyword or default -/
def rest (B : List (Param V)) (kw : Dict String V) : List (String × V) :=
  B.filterMap fun p => ((kw.get p.name).or p.default).map fun v => (p.name, v)

theorem rest_some {B : List (Param V)} {kw : Dict String V} (h : ∀ p ∈ B, ((kw.get p.name).or p.default).isSome) :
    (boundOf B [] kw).all (·.2.isSome) = true ∧
    ((boundOf B [] kw).filterMap fun e => e.2.map fun v => (e.1, v)) = rest B kw ∧
    (rest B kw).map Prod.fst = B.map Param.name := by
  rw [boundOf_nil]
  refine ⟨by simpa using h, by rw [List.filterMap_map]; rfl, ?_⟩
  unfold rest
  induction B with
  | nil => rfl
  | cons p B ih =>
    obtain ⟨v, hv⟩ := Option.isSome_iff_exists.1 (h p (by simp))
    rw [List.filterMap_cons, hv]
    simp [ih (fun p hp => h p (by simp [hp]))]

theorem rest_get {B : List (Param V)} {kw : Dict String V} (h : ∀ p ∈ B, ((kw.get p.name).or p.default).isSome) (j : Nat) :
    (rest B kw)[j]? = B[j]?.bind fun p => ((kw.get p.name).or p.default).map fun v => (p.name, v) := by
  unfold rest
  induction B generalizing j with
  | nil => rfl
  | cons p B ih =>
    obtain ⟨v, hv⟩ := Option.isSome_iff_exists.1 (h p (by simp))
    rw [List.filterMap_cons, hv]
    dsimp only [Option.map_some]
    cases j with
    | zero => simp [hv]
    | succ j => simpa using ih (fun p hp => h p (by simp [hp])) j

/-- C304: more values by position than parameters are refused, by a call and by the wrapper (which has `self` too) -/
theorem too_many_refused (truthy : V → Bool) (no : V) (ps : List (Param V)) (pos : List V) (kw : Dict String V) :
    (ps.length < pos.length → ∃ e, call ps pos kw = .error e) ∧
    (ps.length + 1 < pos.length → ∃ e, wrapper truthy no ps pos kw = .error e) := by
  constructor
  · intro h
    unfold call bindPartial
    rw [if_pos h]
    exact ⟨_, rfl⟩
  · intro h
    unfold wrapper bindPartial
    rw [if_pos (by simpa using h)]
    exact ⟨_, rfl⟩

example : ∃ e, call [⟨"regex", (none : Option Nat)⟩] [1, 2] [] = .error e := ⟨_, rfl⟩

/-- a call with as many values by position as there are parameters in `A` -/
theorem call_split {A B : List (Param V)} {pos : List V} {kw : Dict String V} (hl : A.length = pos.length)
    (hA : ∀ p ∈ A, p.name ∉ kw.keys) (hk : ∀ k ∈ kw.keys, ∃ p ∈ A ++ B, p.name = k)
    (hB : ∀ p ∈ B, ((kw.get p.name).or p.default).isSome) :
    call (A ++ B) pos kw = .ok ((A.zip pos).map (fun e => (e.1.name, e.2)) ++ rest B kw) := by
  unfold call bindPartial
  rw [if_neg (by simp; omega), if_neg, if_neg]
  · dsimp only
    rw [boundOf_append A B pos kw hl]
    obtain ⟨h1, h2, -⟩ := rest_some hB
    rw [if_pos]
    · rw [List.filterMap_append, h2, List.filterMap_map]
      congr 2
      rw [← List.filterMap_eq_map]
      rfl
    · rw [List.all_append, h1]
      simp
  · simp only [List.any_eq_true, Bool.not_eq_true', List.any_eq_false, decide_eq_true_eq, not_exists, not_and, not_forall]
    intro e he
    obtain ⟨p, hp, hn⟩ := hk e.1 (List.mem_map_of_mem he)
    exact ⟨p, hp, fun h => h hn⟩
  · simp only [List.any_eq_true, not_exists, not_and, Bool.not_eq_true]
    intro p hp
    rw [← hl, List.take_left] at hp
    rw [Dict.has_false_iff]
    exact hA p hp

/-- what an accepted call looks like -/
theorem accepts_split {ps : List (Param V)} {pos : List V} {kw : Dict String V} {vals : List (String × V)}
    (hn : (ps.map Param.name).Nodup) (h : Accepts ps pos kw vals) :
    ∃ A B, ps = A ++ B ∧ A.length = pos.length ∧ (∀ p ∈ A, p.name ∉ kw.keys) ∧
      (∀ k ∈ kw.keys, ∃ p ∈ B, p.name = k) ∧ (∀ p ∈ B, ((kw.get p.name).or p.default).isSome) ∧
      vals = (A.zip pos).map (fun e => (e.1.name, e.2)) ++ rest B kw := by
  have hlA : (ps.take pos.length).length = pos.length := by rw [List.length_take]; exact Nat.min_eq_left h.few
  have hB : ∀ (i : Nat) (p : Param V), ps[i]? = some p → pos.length ≤ i → ∃ v,
      vals[i]? = some (p.name, v) ∧ (kw.get p.name).or p.default = some v := by
    intro i p hp hi
    obtain ⟨v, hv, hval⟩ := h.value i p hp
    refine ⟨v, hv, ?_⟩
    cases hval with
    | position h' => rw [List.getElem?_eq_none hi] at h'; cases h'
    | keyword h' hm => rw [(Dict.get_iff h.once _ _).2 hm]; rfl
    | default h' hm hd =>
      have : kw.get p.name = none := by
        rw [Dict.get_eq_none_iff]
        intro hk
        obtain ⟨e, he, hek⟩ := List.mem_map.1 hk
        exact hm e.2 (by rw [← hek]; exact he)
      rw [this, hd]; rfl
  have hBs : ∀ p ∈ ps.drop pos.length, ((kw.get p.name).or p.default).isSome := by
    intro p hp
    obtain ⟨j, hj⟩ := List.mem_iff_getElem?.1 hp
    rw [List.getElem?_drop] at hj
    obtain ⟨v, -, hv⟩ := hB _ p hj (by omega)
    rw [hv]; rfl
  refine ⟨ps.take pos.length, ps.drop pos.length, (List.take_append_drop _ _).symm, hlA, ?_, ?_, hBs, ?_⟩
  · intro p hp hk
    obtain ⟨i, q, hq, hqn, hi⟩ := h.known _ hk
    obtain ⟨j, hj⟩ := List.mem_iff_getElem?.1 hp
    rw [List.getElem?_take] at hj
    split at hj
    · rename_i hlt
      have e1 : (ps.map Param.name)[i]? = some p.name := by rw [List.getElem?_map, hq]; simp [hqn]
      have e2 : (ps.map Param.name)[j]? = some p.name := by rw [List.getElem?_map, hj]; simp
      have := (List.nodup_iff_getElem?_ne_getElem?.1 hn)
      rcases Nat.lt_trichotomy i j with h' | h' | h'
      · omega
      · omega
      · exact this j i h' (by
          have := List.getElem?_eq_some_iff.1 e1
          exact this.1) (by rw [e1, e2])
    · cases hj
  · intro k hk
    obtain ⟨i, q, hq, hqn, hi⟩ := h.known k hk
    refine ⟨q, List.mem_iff_getElem?.2 ⟨i - pos.length, ?_⟩, hqn⟩
    rw [List.getElem?_drop, Nat.add_sub_cancel' hi, hq]
  · apply List.ext_getElem?
    intro i
    have hlen : vals.length = ps.length := by simpa using congrArg List.length h.names
    by_cases hi : i < pos.length
    · have hip : i < ps.length := Nat.lt_of_lt_of_le hi h.few
      obtain ⟨v, hv, hval⟩ := h.value i ps[i] (List.getElem?_eq_getElem hip)
      have hz : ((ps.take pos.length).zip pos)[i]? = some (ps[i], v) := by
        rw [List.getElem?_zip_eq_some]
        refine ⟨by rw [List.getElem?_take, if_pos hi, List.getElem?_eq_getElem hip], ?_⟩
        cases hval with
        | position h' => exact h'
        | keyword h' hm => omega
        | default h' hm hd => omega
      rw [hv, List.getElem?_append_left (by simp; omega), List.getElem?_map, hz]
      rfl
    · have hl2 : (((ps.take pos.length).zip pos).map (fun e => (e.1.name, e.2))).length = pos.length := by
        rw [List.length_map, List.length_zip, hlA, Nat.min_self]
      rw [List.getElem?_append_right (by rw [hl2]; omega), hl2, rest_get hBs, List.getElem?_drop,
        Nat.add_sub_cancel' (by omega)]
      cases hp : ps[i]? with
      | none =>
        rw [List.getElem?_eq_none_iff] at hp
        rw [List.getElem?_eq_none (by omega)]; rfl
      | some p =>
        obtain ⟨v, hv, hv'⟩ := hB i p hp (by omega)
        simp [hv, hv']

theorem takeWhile_args (l : List (String × V)) (n : String) (r : List (String × Option V)) :
    argsOf (l.map (fun e => (e.1, some e.2)) ++ (n, none) :: r) = l.map Prod.snd ∧
    kwargsOf (l.map (fun e => (e.1, some e.2)) ++ (n, none) :: r) = r.filterMap fun e => e.2.map fun v => (e.1, v) := by
  unfold argsOf kwargsOf
  induction l with
  | nil => simp
  | cons e l ih => simpa using ih

theorem kwargs_full (b : List (String × Option V)) (h : b.all (·.2.isSome) = true) : kwargsOf b = [] := by
  unfold kwargsOf
  have : b.dropWhile (·.2.isSome) = [] := by
    induction b with
    | nil => rfl
    | cons e b ih =>
      rw [List.all_cons, Bool.and_eq_true] at h
      rw [List.dropWhile_cons, if_pos h.1, ih h.2]
  rw [this]
  rfl

theorem rest_names {B : List (Param V)} {kw : Dict String V} {e : String × V} (h : e ∈ rest B kw) : ∃ p ∈ B, p.name = e.1 := by
  unfold rest at h
  obtain ⟨p, hp, he⟩ := List.mem_filterMap.1 h
  obtain ⟨v, -, rfl⟩ := Option.map_eq_some_iff.1 he
  exact ⟨p, hp, rfl⟩

theorem rest_set {B : List (Param V)} {kw : Dict String V} (hn : (B.map Param.name).Nodup)
    (h : ∀ p ∈ B, ((kw.get p.name).or p.default).isSome) (no : V) (hm : "apply_unique" ∈ B.map Param.name) :
    rest B (Dict.set (rest B kw) "apply_unique" no) = withFlag no (rest B kw) ∧
    ∀ p ∈ B, (((Dict.set (rest B kw) "apply_unique" no).get p.name).or p.default).isSome := by
  have hk := (rest_some h).2.2
  have hg : ∀ p ∈ B, (Dict.set (rest B kw) "apply_unique" no).get p.name =
      if p.name = "apply_unique" then some no else (kw.get p.name).or p.default := by
    intro p hp
    rw [Dict.get_set]
    split
    · rfl
    · obtain ⟨v, hv⟩ := Option.isSome_iff_exists.1 (h p hp)
      rw [hv]
      refine (Dict.get_iff (by rw [Dict.keys, hk]; exact hn) _ _).2 ?_
      exact List.mem_filterMap.2 ⟨p, hp, by rw [hv]; rfl⟩
  refine ⟨?_, ?_⟩
  · unfold rest at hg ⊢
    unfold withFlag
    rw [List.map_filterMap]
    refine List.filterMap_congr fun p hp => ?_
    rw [hg p hp]
    by_cases hpn : p.name = "apply_unique"
    · obtain ⟨v, hv⟩ := Option.isSome_iff_exists.1 (h p hp)
      rw [hpn] at hv
      simp [hpn, hv]
    · obtain ⟨v, hv⟩ := Option.isSome_iff_exists.1 (h p hp)
      simp [hpn, hv]
  · intro p hp
    rw [hg p hp]
    have := h p hp
    split
    · rfl
    · obtain ⟨v, hv⟩ := Option.isSome_iff_exists.1 this
      rw [hv]; rfl

/-- C304: a call that Python would accept of the undecorated function does the same when decorated (with `apply_unique=False` inside if it
was true) exactly if no more values are given by position than there are parameters without a default; otherwise it raises KeyError -/
theorem call_exact (truthy : V → Bool) (no : V) {req : Nat} {ps : List (Param V)} {pos : List V} {kw : Dict String V}
    {vals : List (String × V)} (hs : Sig req ps) (h : Accepts ps pos kw vals) (u : V) (hu : ("apply_unique", u) ∈ vals) :
    (pos.length ≤ req → wrapper truthy no ps pos kw = .ok (truthy u, if truthy u then withFlag no vals else vals)) ∧
    (req < pos.length → wrapper truthy no ps pos kw = .error "KeyError: apply_unique") := by
  obtain ⟨A, B, rfl, hlA, hA, hk, hB, hv⟩ := accepts_split hs.names h
  have hkself : "self" ∉ kw.keys := by
    intro hm
    obtain ⟨p, hp, hpn⟩ := hk _ hm
    exact hs.self (List.mem_map.2 ⟨p, by simp [hp], hpn⟩)
  obtain ⟨A2, q, hq⟩ : ∃ A2 q, (⟨"self", none⟩ : Param V) :: A = A2 ++ [q] :=
    ⟨_, _, (List.dropLast_append_getLast (List.cons_ne_nil _ A)).symm⟩
  have hl2 : A2.length = pos.length := by
    have := congrArg List.length hq
    simp at this; omega
  have hall : (⟨"self", none⟩ : Param V) :: (A ++ B) = A2 ++ q :: B := by
    rw [← List.cons_append, hq]; simp
  have hno : ∀ p ∈ A2 ++ [q], p.name ∉ kw.keys := by
    rw [← hq]
    intro p hp
    rcases List.mem_cons.1 hp with rfl | hp
    · exact hkself
    · exact hA p hp
  have hdef : q.default = none ↔ pos.length ≤ req := by
    have hi : ((⟨"self", none⟩ : Param V) :: (A ++ B))[pos.length]? = some q := by
      rw [hall, List.getElem?_append_right (by omega), hl2]; simp
    cases hpl : pos.length with
    | zero => rw [hpl] at hi; simp at hi; simp [← hi]
    | succ n =>
      rw [hpl, List.getElem?_cons_succ] at hi
      rw [hs.required n q hi]; omega
  have hbind : bindPartial (⟨"self", none⟩ :: (A ++ B)) pos kw =
      .ok ((A2.zip pos).map (fun e => (e.1.name, some e.2)) ++ (q.name, q.default) :: boundOf B [] kw) := by
    unfold bindPartial
    rw [hall, if_neg (by simp; omega), if_neg, if_neg]
    · rw [boundOf_append A2 (q :: B) pos kw hl2]
      have : kw.get q.name = none := (Dict.get_eq_none_iff _ _).2 (hno q (by simp))
      simp [boundOf, this]
    · simp only [List.any_eq_true, Bool.not_eq_true', List.any_eq_false, decide_eq_true_eq, not_exists, not_and, not_forall]
      intro e he
      obtain ⟨p, hp, hn⟩ := hk e.1 (List.mem_map_of_mem he)
      exact ⟨p, by simp [hp], fun h => h hn⟩
    · simp only [List.any_eq_true, not_exists, not_and, Bool.not_eq_true]
      intro p hp
      rw [← hl2, List.take_left] at hp
      rw [Dict.has_false_iff]
      exact hno p (by simp [hp])
  obtain ⟨r1, r2, r3⟩ := rest_some hB
  have hnB : (B.map Param.name).Nodup := by
    have := hs.names
    rw [List.map_append] at this
    exact (List.nodup_append.1 this).2.1
  constructor
  · intro hp
    obtain ⟨f, hf, hfn, hfd⟩ := hs.flag
    have hreq : ∀ p ∈ A, p.name ≠ "apply_unique" := by
      intro p hpA hpn
      obtain ⟨i, hi⟩ := List.mem_iff_getElem?.1 hpA
      have hil : i < A.length := (List.getElem?_eq_some_iff.1 hi).1
      have hi' : (A ++ B)[i]? = some p := by rw [List.getElem?_append_left hil, hi]
      have : p.default = none := (hs.required i p hi').2 (by omega)
      have hpf : p = f := List.inj_on_of_nodup_map hs.names (by simp [hpA]) hf (by rw [hpn, hfn])
      exact hfd (hpf ▸ this)
    have hfB : "apply_unique" ∈ B.map Param.name := by
      rcases List.mem_append.1 hf with hf | hf
      · exact absurd hfn (hreq f hf)
      · exact List.mem_map.2 ⟨f, hf, hfn⟩
    have hargs := takeWhile_args ((A2.zip pos).map fun e => (e.1.name, e.2)) q.name (boundOf B [] kw)
    rw [List.map_map, List.map_map] at hargs
    have hzip : (A2.zip pos).map (Prod.snd ∘ fun e => (e.1.name, e.2)) = pos := by
      show (A2.zip pos).map Prod.snd = pos
      rw [List.map_snd_zip (by omega)]
    rw [hzip, r2] at hargs
    unfold wrapper
    rw [hbind, hdef.2 hp]
    dsimp only
    have e1 : (A2.zip pos).map (fun e => (e.1.name, some e.2)) = (A2.zip pos).map
        ((fun e : String × V => (e.1, some e.2)) ∘ fun e => (e.1.name, e.2)) := rfl
    rw [e1, hargs.1, hargs.2]
    have hget : Dict.get (rest B kw) "apply_unique" = some u := by
      refine (Dict.get_iff (by rw [Dict.keys, r3]; exact hnB) _ _).2 ?_
      rw [hv, List.mem_append] at hu
      rcases hu with hu | hu
      · obtain ⟨e, he, hen⟩ := List.mem_map.1 hu
        have := (List.of_mem_zip he).1
        exact absurd (congrArg Prod.fst hen) (hreq _ this)
      · exact hu
    rw [hget]
    dsimp only
    obtain ⟨s1, s2⟩ := rest_set hnB hB no hfB
    by_cases ht : truthy u = true
    · rw [if_pos ht, ht, call_split hlA ?_ ?_ s2, s1, hv, if_pos rfl]
      · dsimp only
        congr 2
        unfold withFlag
        rw [List.map_append, List.map_map]
        congr 1
        refine List.map_congr_left fun e he => ?_
        have := hreq _ (List.of_mem_zip he).1
        simp [this]
      · intro p hpA hpk
        rw [Dict.mem_keys_set] at hpk
        rcases hpk with hpk | hpk
        · exact hreq p hpA hpk
        · rw [Dict.keys, r3] at hpk
          have := hs.names
          rw [List.map_append] at this
          exact (List.nodup_append.1 this).2.2 _ (List.mem_map_of_mem hpA) _ hpk rfl
      · intro k hkk
        rw [Dict.mem_keys_set] at hkk
        have : k ∈ B.map Param.name := by
          rcases hkk with rfl | hkk
          · exact hfB
          · rwa [Dict.keys, r3] at hkk
        obtain ⟨p, hp, hpn⟩ := List.mem_map.1 this
        exact ⟨p, by simp [hp], hpn⟩
    · rw [if_neg ht, if_neg ht, call_split hlA hA (fun k hkk => ?_) hB, ← hv]
      · simp [ht]
      · obtain ⟨p, hp, hpn⟩ := hk k hkk
        exact ⟨p, by simp [hp], hpn⟩
  · intro hp
    have : q.default ≠ none := fun h' => by have := hdef.1 h'; omega
    obtain ⟨d, hd⟩ := Option.ne_none_iff_exists'.1 this
    unfold wrapper
    rw [hbind]
    dsimp only
    rw [kwargs_full]
    · rfl
    · rw [List.all_append, List.all_cons, r1, hd]
      simp

/-- the signatures of 907, 963-965 and 1030-1032, with the defaults as texts -/
def matchSig : List (Param String) := [⟨"regex", none⟩, ⟨"apply_unique", some "True"⟩]
def replaceSig : List (Param String) := [⟨"regex", none⟩, ⟨"repl", none⟩, ⟨"apply_unique", some "True"⟩]
def extractSig : List (Param String) :=
  [⟨"regex", none⟩, ⟨"expand", some "None"⟩, ⟨"fillna", some ""⟩, ⟨"names", some "None"⟩, ⟨"apply_unique", some "True"⟩]

theorem sig_of (req : Nat) (ps : List (Param String)) (h1 : (ps.map Param.name).Nodup) (h2 : "self" ∉ ps.map Param.name)
    (h3 : ∀ i (hi : i < ps.length), (ps[i].default = none ↔ i < req))
    (h4 : ∃ p ∈ ps, p.name = "apply_unique" ∧ p.default ≠ none) : Sig req ps :=
  ⟨h1, h2, fun i p hp => by obtain ⟨hi, rfl⟩ := List.getElem?_eq_some_iff.1 hp; exact h3 i hi, h4⟩

/-- C304: the decorated functions have signatures of this kind, with 1, 2 and 1 parameters without a default -/
theorem sigs : Sig 1 matchSig ∧ Sig 2 replaceSig ∧ Sig 1 extractSig := by
  refine ⟨sig_of _ _ (by decide) (by decide) (by decide) (by decide), sig_of _ _ (by decide) (by decide) (by decide) (by decide),
    sig_of _ _ (by decide) (by decide) (by decide) (by decide)⟩

example : Accepts matchSig ["a+"] [("apply_unique", "False")] [("regex", "a+"), ("apply_unique", "False")] := by
  refine ⟨by decide, by decide, ?_, by decide, ?_⟩
  · intro k hk
    obtain rfl : k = "apply_unique" := by simpa using hk
    exact ⟨1, _, rfl, rfl, by decide⟩
  · intro i p hp
    match i, hp with
    | 0, hp => cases hp; exact ⟨_, rfl, .position _ rfl⟩
    | 1, hp => cases hp; exact ⟨_, rfl, .keyword _ (by decide) (by decide)⟩

/-- C304: `regex_match(regex, False)` is accepted by the signature and raises KeyError -/
theorem position_counterexample :
    Accepts matchSig ["a+", "False"] [] [("regex", "a+"), ("apply_unique", "False")] ∧
    wrapper (fun v => v = "True") "False" matchSig ["a+", "False"] [] = .error "KeyError: apply_unique" := by
  refine ⟨⟨by decide, by decide, by simp, by decide, ?_⟩, by decide +kernel⟩
  intro i p hp
  match i, hp with
  | 0, hp => cases hp; exact ⟨_, rfl, .position _ rfl⟩
  | 1, hp => cases hp; exact ⟨_, rfl, .position _ rfl⟩

end Verif.Regex
