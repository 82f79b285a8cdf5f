import Verif.MemberCat.Model
import Verif.MemberCat.Spec

namespace Verif.MemberCat
open Spec

variable {T : Type} [DecidableEq T]

theorem firstAt_iff {A : Type} [DecidableEq A] (l : List A) (x : A) (j : Nat) :
    firstAt l x = some j ↔ l[j]? = some x ∧ ∀ k, k < j → l[k]? ≠ some x := by
  unfold firstAt
  split
  · rename_i hx
    have hlt := List.idxOf_lt_length_of_mem hx
    have hget : l[l.idxOf x]? = some x := by rw [List.getElem?_eq_getElem hlt]; simp
    have hmin : ∀ k, k < l.idxOf x → l[k]? ≠ some x := by
      intro k hk h
      obtain ⟨hkl, he⟩ := List.getElem?_eq_some_iff.1 h
      have := List.not_of_lt_findIdx (p := fun y => y == x) (xs := l) hk
      simp [he] at this
    constructor
    · intro h
      obtain rfl := Option.some.inj h
      exact ⟨hget, hmin⟩
    · rintro ⟨h1, h2⟩
      congr 1
      rcases Nat.lt_trichotomy (l.idxOf x) j with h | h | h
      · exact absurd hget (h2 _ h)
      · exact h
      · exact absurd h1 (hmin _ h)
  · rename_i hx
    constructor
    · intro h; cases h
    · rintro ⟨h1, _⟩; exact absurd (List.mem_of_getElem? h1) hx

/-- the codes of a Categorical name categories, or are filtered; no category occurs twice -/
def WF : Cat T → Prop
  | .arr _ base codes cats => cats.Nodup ∧ ∀ k ∈ codes, k < (base : Int) + cats.length
  | .mapped _ _ _ => True

theorem labelOf_inj {base : Nat} {cats : List T} (hn : cats.Nodup) {u : Nat} {v : T} (hu : cats[u]? = some v) (k : Int) :
    labelOf base cats k = some v ↔ k = (u : Int) + base := by
  unfold labelOf
  constructor
  · intro h
    split at h
    · cases h
    · rename_i hk
      obtain ⟨h1, e1⟩ := List.getElem?_eq_some_iff.1 h
      obtain ⟨h2, e2⟩ := List.getElem?_eq_some_iff.1 hu
      have := (List.Nodup.getElem_inj_iff hn (hi := h1) (hj := h2)).1 (e1.trans e2.symm)
      omega
  · rintro rfl
    rw [if_neg (by omega)]
    have : ((u : Int) + base - base).toNat = u := by omega
    rw [this, hu]

theorem matchArr_found (ba bb : Nat) (ca cb : List Int) (la lb : List T) (hb : lb.Nodup) :
    Found (ca.map (labelOf ba la)) (cb.map (labelOf bb lb)) (matchArr ba bb ca cb la lb) := by
  refine ⟨by simp [matchArr], ?_⟩
  intro i x hx j
  simp only [matchArr, List.getElem?_map, Option.map_eq_some_iff] at hx
  obtain ⟨k, hk, rfl⟩ := hx
  have hlab : (ca.map (labelOf ba la))[i]? = some (labelOf ba la k) := by simp [hk]
  rw [hlab]
  simp only [Option.some.injEq]
  -- the label of the row
  cases hl : labelOf ba la k with
  | none =>
    have : fixupOne cb (la.map (firstAt lb)) ba bb k = none := by
      unfold fixupOne labelOf at *
      split
      · rfl
      · rename_i hkb
        rw [if_neg hkb] at hl
        rw [List.getElem?_map, hl]
        rfl
    rw [this]
    simp
  | some v =>
    have hla : la[(k - ba).toNat]? = some v ∧ ¬ k < ba := by
      unfold labelOf at hl
      split at hl
      · cases hl
      · rename_i h; exact ⟨hl, h⟩
    have hfix : fixupOne cb (la.map (firstAt lb)) ba bb k =
        match firstAt lb v with
        | some u => firstAt cb ((u : Int) + bb)
        | none => none := by
      unfold fixupOne
      rw [if_neg hla.2, List.getElem?_map, hla.1]
      simp only [Option.map_some]
      cases firstAt lb v <;> rfl
    rw [hfix]
    cases hu : firstAt lb v with
    | none =>
      have hv : v ∉ lb := by
        intro hm
        unfold firstAt at hu
        rw [if_pos hm] at hu
        cases hu
      simp only
      constructor
      · intro h; cases h
      · rintro ⟨w, hw, hj, _⟩
        obtain rfl := Option.some.inj hw
        exfalso
        rw [List.getElem?_map, Option.map_eq_some_iff] at hj
        obtain ⟨q, _, hq⟩ := hj
        unfold labelOf at hq
        split at hq
        · cases hq
        · exact hv (List.mem_of_getElem? hq)
    | some u =>
      have hlbu := ((firstAt_iff lb v u).1 hu).1
      simp only
      rw [firstAt_iff]
      have conv : ∀ n : Nat, (cb.map (labelOf bb lb))[n]? = some (some v) ↔ cb[n]? = some ((u : Int) + bb) := by
        intro n
        rw [List.getElem?_map]
        cases hc : cb[n]? with
        | none => simp
        | some q => simp [labelOf_inj hb hlbu q]
      constructor
      · rintro ⟨h1, h2⟩
        exact ⟨v, rfl, (conv j).2 h1, fun n hn h => h2 n hn ((conv n).1 h)⟩
      · rintro ⟨w, hw, h1, h2⟩
        obtain rfl := Option.some.inj hw
        exact ⟨(conv j).1 h1, fun n hn h => h2 n hn ((conv n).2 h)⟩

theorem uniqFirst_nodup (l : List T) : (uniqFirst l).Nodup := by
  unfold uniqFirst; rw [List.nodup_reverse]; exact List.nodup_dedup _

theorem ofArray_labels (m : Mode) (l : List T) : Arg.labels (.cat (ofArray m l)) = l.map some := by
  simp only [ofArray, Arg.labels, List.map_map]
  apply List.map_congr_left
  intro v hv
  have hm : v ∈ uniqFirst l := by simp [uniqFirst, hv]
  simp only [Function.comp, labelOf]
  rw [if_neg (by omega)]
  have : (((uniqFirst l).idxOf v : Int) + 1 - (1 : Nat)).toNat = (uniqFirst l).idxOf v := by omega
  rw [this, List.getElem?_eq_getElem (List.idxOf_lt_length_of_mem hm)]
  simp

theorem matchCats_found {a b : Cat T} {r : List (Option Nat)} (h : matchCats a b = .ok r) (hb : WF b)
    (ha : ∀ e c m, a ≠ .mapped e c m) : Found (Arg.labels (.cat a)) (Arg.labels (.cat b)) r := by
  cases a with
  | mapped e c m => exact absurd rfl (ha e c m)
  | arr ma ba ca la =>
    cases b with
    | mapped e c m => simp [matchCats] at h
    | arr mb bb cb lb =>
      have := matchArr_found ba bb ca cb la lb hb.1
      unfold matchCats at h
      cases ma <;> cases mb <;> simp only at h <;> try cases h
      · exact this
      · exact this
      · split at h
        · cases h
        · cases h; exact this

theorem found_empty (la lb : List (Option T)) (h : la.length = 0 ∨ lb.length = 0) :
    Found la lb (List.replicate la.length none) := by
  refine ⟨by simp, ?_⟩
  intro i x hx j
  simp only [List.getElem?_replicate] at hx
  split at hx
  · cases hx
    constructor
    · intro h; cases h
    · rintro ⟨v, h1, h2, _⟩
      rcases h with h | h
      · rw [List.length_eq_zero_iff.1 h] at h1; simp at h1
      · rw [List.length_eq_zero_iff.1 h] at h2; simp at h2
  · cases hx

theorem labels_length (x : Arg T) : x.labels.length = x.len := by
  cases x with
  | cat c => cases c <;> simp [Arg.labels, Arg.len]
  | strs l => simp [Arg.labels, Arg.len]
  | nums l => simp [Arg.labels, Arg.len]

/-- no mapping on either side -/
def NoMap : Arg T → Prop
  | .cat (.mapped _ _ _) => False
  | _ => True

def ArgWF : Arg T → Prop
  | .cat c => WF c
  | _ => True

theorem ofArray_wf (m : Mode) (l : List T) : WF (ofArray m l) := by
  refine ⟨uniqFirst_nodup l, ?_⟩
  intro k hk
  simp only [List.mem_map] at hk
  obtain ⟨v, hv, rfl⟩ := hk
  have hm : v ∈ uniqFirst l := by simp [uniqFirst, hv]
  have := List.idxOf_lt_length_of_mem hm
  push_cast; omega

/-- an argument and the Categorical made of it show the same labels -/
theorem asCat_spec {c : Cat T} {x : Arg T} {d : Cat T} (h : asCat c x = .ok d) (hx : ArgWF x) :
    Arg.labels (.cat d) = x.labels ∧ WF d ∧ (NoMap x → NoMap (.cat d)) := by
  cases x with
  | cat e => simp [asCat] at h; subst h; exact ⟨rfl, hx, id⟩
  | strs l =>
    have : d = ofArray .string l := by
      cases c with
      | mapped e c m => simp [asCat] at h
      | arr m b c k => cases m <;> simp [asCat] at h; exact h.symm
    subst this
    exact ⟨ofArray_labels _ l, ofArray_wf _ l, fun _ => trivial⟩
  | nums l =>
    have : d = ofArray .numeric l := by
      cases c with
      | mapped e c m => simp [asCat] at h
      | arr m b c k => cases m <;> simp [asCat] at h; exact h.symm
    subst this
    exact ⟨ofArray_labels _ l, ofArray_wf _ l, fun _ => trivial⟩

theorem ismember_cases {a b : Arg T} {r : List (Option Nat)} (h : ismember a b = .ok r) (hne : ¬ (a.len = 0 ∨ b.len = 0)) :
    ∃ c ca cb, asCat c a = .ok ca ∧ asCat c b = .ok cb ∧ matchCats ca cb = .ok r := by
  unfold ismember at h
  rw [if_neg hne] at h
  cases a with
  | cat ca =>
    simp only at h
    cases hc : asCat ca b with
    | error e => rw [hc] at h; cases h
    | ok cb => rw [hc] at h; exact ⟨ca, ca, cb, rfl, hc, h⟩
  | strs l =>
    cases b with
    | cat cb =>
      simp only at h
      cases hc : asCat cb (.strs l) with
      | error e => rw [hc] at h; cases h
      | ok ca => rw [hc] at h; exact ⟨cb, ca, cb, hc, rfl, h⟩
    | strs k => cases h
    | nums k => cases h
  | nums l =>
    cases b with
    | cat cb =>
      simp only at h
      cases hc : asCat cb (.nums l) with
      | error e => rw [hc] at h; cases h
      | ok ca => rw [hc] at h; exact ⟨cb, ca, cb, hc, rfl, h⟩
    | strs k => cases h
    | nums k => cases h

/-- `ismember` with a Categorical on one side or on both, if it gives a result, finds for every row the first row of the other side that
shows the same label. Categoricals with a mapping are excluded (`mapped_exact`, `mapped_counterexample`). -/
theorem labels_exact (a b : Arg T) (r : List (Option Nat)) (ha : ArgWF a) (hb : ArgWF b) (na : NoMap a)
    (h : ismember a b = .ok r) : Found a.labels b.labels r := by
  by_cases he : a.len = 0 ∨ b.len = 0
  · unfold ismember at h
    rw [if_pos he] at h
    cases h
    rw [← labels_length a]
    apply found_empty
    rw [labels_length, labels_length]; exact he
  · obtain ⟨c, ca, cb, h1, h2, h3⟩ := ismember_cases h he
    obtain ⟨l1, _, n1⟩ := asCat_spec h1 ha
    obtain ⟨l2, w2, _⟩ := asCat_spec h2 hb
    rw [← l1, ← l2]
    apply matchCats_found h3 w2
    rintro e c m rfl
    exact n1 na

/-- It gives a result for texts with texts, numbers with numbers and the same number of keys. -/
theorem returns_exact (a b : Arg T) (ca : Cat T) (m : Mode) (ba : Nat) (c : List Int) (l : List T) (hca : ca = .arr m ba c l)
    (ha : a = .cat ca)
    (hb : (∃ bb cb lb, b = .cat (.arr m bb cb lb)) ∨ (m = .string ∧ ∃ x, b = .strs x) ∨ (m = .numeric ∧ ∃ x, b = .nums x)) :
    (∃ r, ismember a b = .ok r) ∧ ∃ r, ismember b a = .ok r := by
  subst hca ha
  rcases hb with ⟨bb, cb, lb, rfl⟩ | ⟨rfl, x, rfl⟩ | ⟨rfl, x, rfl⟩
  · cases m <;> constructor <;> (unfold ismember; split <;> simp [asCat, matchCats])
  · constructor <;> (unfold ismember; split <;> simp [asCat, matchCats, ofArray])
  · constructor <;> (unfold ismember; split <;> simp [asCat, matchCats, ofArray])

/-- Categoricals with different numbers of keys are refused. -/
theorem keys_refused (n m ba bb : Nat) (ca cb : List Int) (la lb : List T) (ha : ca ≠ []) (hb : cb ≠ []) (h : n ≠ m) :
    ismember (.cat (.arr (.multi n) ba ca la)) (.cat (.arr (.multi m) bb cb lb)) = .error .valueError := by
  unfold ismember
  rw [if_neg (by simp [Arg.len, ha, hb])]
  simp [asCat, matchCats, h]

example : ismember (T := Nat) (.cat (.arr (.multi 3) 1 [1] [7])) (.cat (.arr (.multi 2) 1 [1] [7])) = .error .valueError := rfl

/-- Two Categoricals with mappings are compared by their codes, unless a code has different labels: then ValueError. -/
theorem mapped_exact (e : Bool) (ca cb : List Int) (ma mb : List (Int × T)) (hm : (ma.map Prod.fst).Nodup) (ha : ca ≠ []) (hb : cb ≠ []) :
    (ismember (.cat (.mapped e ca ma)) (.cat (.mapped e cb mb)) = .error .valueError ↔
      ∃ (k : Int) (x y : T), lookup ma k = some x ∧ lookup mb k = some y ∧ x ≠ y) ∧
    ∀ r, ismember (.cat (.mapped e ca ma)) (.cat (.mapped e cb mb)) = .ok r → Found (ca.map some) (cb.map some) r := by
  have hlen : ¬ ((Arg.cat (Cat.mapped e ca ma)).len = 0 ∨ (Arg.cat (Cat.mapped e cb mb)).len = 0) := by
    simp [Arg.len, ha, hb]
  have key : ismember (.cat (.mapped e ca ma)) (.cat (.mapped e cb mb)) =
      if agree ma mb then .ok (ca.map (firstAt cb)) else .error .valueError := by
    unfold ismember
    rw [if_neg hlen]
    simp [asCat, matchCats]
  rw [key]
  constructor
  · constructor
    · intro h
      have hag : agree ma mb = false := by
        by_contra hc
        rw [if_pos (by simpa using hc)] at h
        cases h
      simp only [agree, List.all_eq_false] at hag
      obtain ⟨p, hp, hq⟩ := hag
      cases hl : lookup mb p.1 with
      | none => rw [hl] at hq; simp at hq
      | some y =>
        rw [hl] at hq
        refine ⟨p.1, p.2, y, ?_, hl, by intro hxy; simp [hxy] at hq⟩
        unfold lookup
        rw [Option.map_eq_some_iff]
        obtain ⟨i, hi, rfl⟩ := List.getElem_of_mem hp
        refine ⟨ma[i], ?_, rfl⟩
        cases hf : ma.find? (fun e => decide (e.1 = ma[i].1)) with
        | none =>
          rw [List.find?_eq_none] at hf
          exact absurd (hf _ hp) (by simp)
        | some q =>
          have h1 := List.mem_of_find?_eq_some hf
          have h2 : q.1 = ma[i].1 := by simpa using List.find?_some hf
          have h3 : q.2 = ma[i].2 := by
            obtain ⟨j, hj, rfl⟩ := List.getElem_of_mem h1
            have : j = i := (List.Nodup.getElem_inj_iff hm (hi := by simpa using hj) (hj := by simpa using hi)).1 (by simpa using h2)
            subst this; rfl
          exact congrArg some (Prod.ext h2 h3)
    · rintro ⟨k, x, y, hx, hy, hxy⟩
      rw [if_neg]
      simp only [agree, List.all_eq_true, not_forall]
      unfold lookup at hx
      rw [Option.map_eq_some_iff] at hx
      obtain ⟨p, hp, rfl⟩ := hx
      refine ⟨p, List.mem_of_find?_eq_some hp, ?_⟩
      have hpk : p.1 = k := by simpa using List.find?_some hp
      rw [hpk, hy]
      simpa using fun h => hxy h.symm
  · intro r hr
    split at hr
    · cases hr
      refine ⟨by simp, ?_⟩
      intro i x hx j
      simp only [List.getElem?_map, Option.map_eq_some_iff] at hx
      obtain ⟨k, hk, rfl⟩ := hx
      rw [firstAt_iff]
      simp only [List.getElem?_map, hk, Option.map_some, Option.some.injEq]
      constructor
      · rintro ⟨h1, h2⟩
        refine ⟨k, rfl, by simp [h1], ?_⟩
        intro n hn h
        apply h2 n hn
        cases hc : cb[n]? with
        | none => rw [hc] at h; simp at h
        | some q => rw [hc] at h; simpa using h
      · rintro ⟨v, rfl, h1, h2⟩
        refine ⟨?_, ?_⟩
        · cases hc : cb[j]? with
          | none => rw [hc] at h1; simp at h1
          | some q => rw [hc] at h1; simpa using h1
        · intro n hn h
          exact h2 n hn (by simp [h])
    · cases hr

/-- a Categorical with a filtered row in another with other categories, and in an array -/
example : ismember (.cat (.arr .string 1 [1, 2, 0, 2] [10, 20])) (.cat (.arr .string 1 [3, 1, 1] [20, 40, 30])) = .ok [none, some 1, none, some 1] ∧
    ismember (.cat (.arr .string 1 [1, 2, 0, 2] [10, 20])) (.strs [30, 20, 20]) = .ok [none, some 1, none, some 1] := by decide

example : ArgWF (.cat (.arr .string 1 [3, 1, 1] [20, 40, 30])) ∧ NoMap (Arg.cat (Cat.arr .string 1 [3, 1, 1] [20, 40, 30])) := by
  refine ⟨⟨by decide, by decide⟩, trivial⟩

/-- With mappings the same label is not found under another code, and codes without a label are found. -/
theorem mapped_counterexample :
    ∃ (a b : Arg Nat) (r : List (Option Nat)), ismember a b = .ok r ∧ ¬ Found a.labels b.labels r ∧
      a.labels = [some 7, none] ∧ b.labels = [some 7, none] ∧ r = [none, some 1] := by
  refine ⟨.cat (.mapped false [1, 5] [(1, 7)]), .cat (.mapped false [2, 5] [(2, 7)]), [none, some 1], by decide, ?_, by decide, by decide, rfl⟩
  rintro ⟨_, h⟩
  have := (h 0 none rfl 0).2 ⟨7, by decide, by decide, by intro k hk; omega⟩
  cases this

/-- A Categorical with a mapping and an array of its labels raise TypeError, and so do texts and numbers. -/
theorem mode_exact (e : Bool) (codes : List Int) (m : List (Int × T)) (l : List T) (base : Nat) (cats : List T) (hc : codes ≠ []) (hl : l ≠ []) :
    ismember (.cat (.mapped e codes m)) (.strs l) = .error .typeError ∧ ismember (.strs l) (.cat (.mapped e codes m)) = .error .typeError ∧
    ismember (.cat (.arr .string base codes cats)) (.nums l) = .error .typeError ∧
    ismember (.cat (.arr .numeric base codes cats)) (.strs l) = .error .typeError := by
  refine ⟨?_, ?_, ?_, ?_⟩ <;> (unfold ismember; rw [if_neg (by simp [Arg.len, hc, hl])]; rfl)

end Verif.MemberCat
