import Verif.Regex.Model
import Mathlib.Data.List.Basic
/-! # Patterns in arrays of texts (C305 - C307) -/
namespace Verif.Regex
open Verif.Items Spec

theorem filterMap_get {W : Type} (g : String → W) {strs : List String} {u : List String × List Nat} (h : Unique strs u) :
    (u.2.filterMap fun i => (u.1.map g)[i]?) = strs.map g := by
  obtain ⟨hl, hp, -⟩ := h
  obtain ⟨us, idx⟩ := u
  dsimp only at *
  induction strs generalizing idx with
  | nil =>
    obtain rfl : idx = [] := List.length_eq_zero_iff.1 hl
    rfl
  | cons s strs ih =>
    cases idx with
    | nil => simp at hl
    | cons k idx =>
      obtain ⟨k', hk, hs⟩ := hp 0 s rfl
      obtain rfl : k = k' := by simpa using hk
      rw [List.filterMap_cons, List.getElem?_map, hs]
      dsimp only [Option.map_some]
      rw [ih idx (by simpa using hl) (fun i s hs => hp (i + 1) s (by simpa using hs))]
      rfl

theorem unique_empty {strs : List String} {u : List String × List Nat} (h : Unique strs u) : u.1.isEmpty = strs.isEmpty := by
  rw [Bool.eq_iff_iff, List.isEmpty_iff, List.isEmpty_iff]
  constructor
  · intro hu
    cases strs with
    | nil => rfl
    | cons s strs =>
      obtain ⟨k, -, hk⟩ := h.place 0 s rfl
      rw [hu] at hk; simp at hk
  · rintro rfl
    cases hu : u.1 with
    | nil => rfl
    | cons s l => exact absurd (h.used s (by simp [hu])) (by simp)

/-- C305: `regex_match` says for every text whether the pattern is found; texts and pattern are both bytes or both str, for bytes the pattern
may be either -/
theorem match_partial (re : String → Option Rx) (arr : Arr) (regex : Txt) (rx : Rx) (hr : re regex.s = some rx)
    (hk : arr.kind = .bytes ∨ regex.kind = .str) (hne : arr.strs ≠ []) :
    regexMatch re arr regex = .ok (arr.strs.map fun s => (rx.search s).isSome) := by
  have h1 : (encodeFor arr.kind regex).s = regex.s := by unfold encodeFor; split <;> rfl
  have h2 : agrees arr (encodeFor arr.kind regex) = true := by
    unfold agrees encodeFor
    cases hA : arr.kind
    · simp
    · rcases hk with hk | hk
      · rw [hA] at hk; cases hk
      · simp [hk]
  simp [regexMatch, h1, hr, h2, hne]

/-- C305: `regex_replace` replaces in every text -/
theorem replace_partial (re : String → Option Rx) (arr : Arr) (regex repl : Txt) (rx : Rx) (hr : re regex.s = some rx)
    (hk : arr.kind = .bytes ∨ regex.kind = .str ∧ repl.kind = .str) (hne : arr.strs ≠ []) :
    regexReplace re arr regex repl = .ok (arr.strs.map fun s => rx.sub repl.s s) := by
  have h1 : ∀ t, (encodeFor arr.kind t).s = t.s := by intro t; unfold encodeFor; split <;> rfl
  have h2 : agrees arr (encodeFor arr.kind regex) = true ∧ agrees arr (encodeFor arr.kind repl) = true := by
    unfold agrees encodeFor
    cases hA : arr.kind
    · simp
    · rcases hk with hk | hk
      · rw [hA] at hk; cases hk
      · simp [hk]
  simp [regexReplace, h1, hr, h2, hne]

private def toyRx : Rx := ⟨0, [], fun s => if s = "ab" then some [] else none, fun s => if s = "ab" then some "ab" else none,
  fun r s => if s = "ab" then r else s⟩

example : regexMatch (fun p => if p = "ab" then some toyRx else none) ⟨.bytes, ["ab", "c"]⟩ ⟨.str, "ab"⟩ = .ok [true, false] := by
  decide +kernel

/-- C305: an array without elements is refused -/
theorem empty_counterexample :
    ¬ ∀ (re : String → Option Rx) (arr : Arr) (regex : Txt) (rx : Rx), re regex.s = some rx → arr.kind = .bytes →
      regexMatch re arr regex = .ok (arr.strs.map fun s => (rx.search s).isSome) := by
  intro h
  have := h (fun _ => some toyRx) ⟨.bytes, []⟩ ⟨.str, "ab"⟩ toyRx rfl rfl
  revert this
  decide +kernel

/-- C305: `apply_unique` does not matter, neither for results nor for exceptions -/
theorem unique_exact (re : String → Option Rx) (uniq : List String → List String × List Nat) (arr : Arr)
    (h : Unique arr.strs (uniq arr.strs)) (regex repl : Txt) :
    uniqueOf uniq (fun a => regexMatch re a regex) arr = regexMatch re arr regex ∧
    uniqueOf uniq (fun a => regexReplace re a regex repl) arr = regexReplace re arr regex repl := by
  have he := unique_empty h
  have ha : ∀ t, agrees ⟨arr.kind, (uniq arr.strs).1⟩ t = agrees arr t := by
    intro t; unfold agrees; dsimp only; rw [he]
  constructor
  · unfold uniqueOf regexMatch
    simp only [he, ha]
    cases re (encodeFor arr.kind regex).s with
    | none => rfl
    | some rx =>
      dsimp only
      split
      · rename_i h'
        split at h'
        · rename_i h2; rw [if_pos h2]; exact h'.symm ▸ rfl
        · rename_i h2
          split at h'
          · cases h'
          · rename_i h3; rw [if_neg h2, if_neg h3]; exact h'.symm ▸ rfl
      · rename_i l h'
        split at h'
        · cases h'
        · rename_i h2
          split at h'
          · rename_i h3
            cases h'
            rw [if_neg h2, if_pos h3, filterMap_get _ h]
          · cases h'
  · unfold uniqueOf regexReplace
    simp only [he, ha]
    cases re (encodeFor arr.kind regex).s with
    | none => rfl
    | some rx =>
      dsimp only
      split
      · rename_i h'
        split at h'
        · rename_i h2; rw [if_pos h2]; exact h'.symm ▸ rfl
        · rename_i h2
          split at h'
          · cases h'
          · rename_i h3; rw [if_neg h2, if_neg h3]; exact h'.symm ▸ rfl
      · rename_i l h'
        split at h'
        · cases h'
        · rename_i h2
          split at h'
          · rename_i h3
            cases h'
            rw [if_neg h2, if_pos h3, filterMap_get _ h]
          · cases h'

example : Unique ["b", "a", "b"] (["a", "b"], [1, 0, 1]) := by
  refine ⟨rfl, ?_, by decide⟩
  intro i s hs
  match i, hs with
  | 0, hs => cases hs; exact ⟨1, rfl, rfl⟩
  | 1, hs => cases hs; exact ⟨0, rfl, rfl⟩
  | 2, hs => cases hs; exact ⟨1, rfl, rfl⟩

/-! ## extract -/

/-- what Python's `re` promises: a match has all groups; names have the numbers of groups, a group has at most one name -/
structure Rx.Ok (rx : Rx) : Prop where
  found : ∀ s gs, rx.search s = some gs → gs.length = rx.groups
  range : ∀ e ∈ rx.names, 1 ≤ e.2 ∧ e.2 ≤ rx.groups
  once : (rx.names.map Prod.snd).Nodup

theorem foldl_set_length (l : List (String × Nat)) (d : List String) :
    (l.foldl (fun l e => l.set (e.2 - 1) e.1) d).length = d.length := by
  induction l generalizing d with
  | nil => rfl
  | cons e l ih => simp [ih]

theorem foldl_set_get (l : List (String × Nat)) (d : List String) (j : Nat) (n : String) (hn : (l.map Prod.snd).Nodup)
    (hr : ∀ e ∈ l, 1 ≤ e.2) (h : (l.foldl (fun l e => l.set (e.2 - 1) e.1) d)[j]? = some n) :
    (n, j + 1) ∈ l ∨ (∀ m, (m, j + 1) ∉ l) ∧ d[j]? = some n := by
  induction l generalizing d with
  | nil => exact .inr ⟨by simp, h⟩
  | cons e l ih =>
    rw [List.map_cons, List.nodup_cons] at hn
    rcases ih _ hn.2 (fun e he => hr e (by simp [he])) h with h' | ⟨h1, h2⟩
    · exact .inl (by simp [h'])
    · have he := hr e (by simp)
      by_cases hj : e.2 - 1 = j
      · rw [List.getElem?_set, if_pos hj] at h2
        split at h2
        · left
          cases h2
          have : e = (e.1, j + 1) := Prod.ext rfl (by simp; omega)
          rw [← this]; simp
        · cases h2
      · rw [List.getElem?_set, if_neg hj] at h2
        refine .inr ⟨fun m hm => ?_, h2⟩
        rcases List.mem_cons.1 hm with hm | hm
        · apply hj; rw [← hm]; simp
        · exact h1 m hm

theorem default_names (rx : Rx) (h : rx.Ok) : DefaultNames rx.groups rx.names (defaultNames rx) := by
  refine ⟨by unfold defaultNames; rw [foldl_set_length]; simp, ?_⟩
  intro j n hj
  rcases foldl_set_get _ _ j n h.once (fun e he => (h.range e he).1) hj with h' | ⟨h1, h2⟩
  · exact .inl h'
  · refine .inr ⟨h1, ?_⟩
    rw [List.getElem?_map] at h2
    by_cases hlt : j < rx.groups
    · rw [List.getElem?_range hlt] at h2
      exact (Option.some.inj h2).symm
    · rw [List.getElem?_eq_none (by simpa using hlt)] at h2
      cases h2

theorem dictOf_nodup {W : Type} (l : List (String × W)) (hn : (l.map Prod.fst).Nodup) : dictOf l = l := by
  have : ∀ (d : Dict String W), (∀ e ∈ l, e.1 ∉ d.keys) → l.foldl (fun d e => d.set e.1 e.2) d = d ++ l := by
    induction l with
    | nil => intro d _; exact (List.append_nil d).symm
    | cons e l ih =>
      intro d hd
      rw [List.map_cons, List.nodup_cons] at hn
      rw [List.foldl_cons, Dict.set_of_notMem (hd e (by simp)), ih hn.2]
      · simp
      · intro e' he' hk
        simp only [Dict.keys, List.map_append, List.mem_append, List.map_cons, List.map_nil, List.mem_singleton] at hk
        rcases hk with hk | hk
        · exact hd e' (by simp [he']) hk
        · exact hn.1 (hk ▸ List.mem_map_of_mem he')
  exact this [] (by simp [Dict.keys])

theorem cell_spec (rx : Rx) (h : rx.Ok) (fillna : String) (j : Nat) (hj : j < rx.groups) (s : String) :
    GroupCell' fillna j (rx.search s) (cellOf fillna j (rx.search s)) := by
  cases hs : rx.search s with
  | none => exact .noMatch
  | some gs =>
    have hl : j < gs.length := by rw [h.found s gs hs]; exact hj
    have hg : gs[j]? = some gs[j] := List.getElem?_eq_getElem hl
    simp only [cellOf]
    rw [hg]
    cases hc : gs[j] with
    | some t => exact .took gs t (by rw [hg, hc])
    | none => exact .unused gs (by rw [hg, hc])

theorem default_unique (g : Nat) (named : List (String × Nat)) (ho : (named.map Prod.snd).Nodup) (a b : List String)
    (ha : DefaultNames g named a) (hb : DefaultNames g named b) : a = b := by
  apply List.ext_getElem?
  intro j
  by_cases hj : j < g
  · have e1 : a[j]? = some (a[j]'(by rw [ha.1]; exact hj)) := List.getElem?_eq_getElem _
    have e2 : b[j]? = some (b[j]'(by rw [hb.1]; exact hj)) := List.getElem?_eq_getElem _
    have h1 := ha.2 j _ e1
    have h2 := hb.2 j _ e2
    rw [e1, e2]
    congr 1
    rcases h1 with h1 | ⟨h1, h1'⟩ <;> rcases h2 with h2 | ⟨h2, h2'⟩
    · exact congrArg Prod.fst (List.inj_on_of_nodup_map ho h1 h2 rfl)
    · exact absurd h1 (h2 _)
    · exact absurd h2 (h1 _)
    · rw [h1', h2']
  · rw [List.getElem?_eq_none (by rw [ha.1]; omega), List.getElem?_eq_none (by rw [hb.1]; omega)]

/-- what `extract` has to do for the names and for `expand`, from its arguments -/
structure Asked (rx : Rx) (expand : Option Bool) (given : Option (List String)) (ns : List String) (ex : Bool) : Prop where
  names : given = some ns ∧ ns.length = rx.groups ∨ given = none ∧ DefaultNames rx.groups rx.names ns
  dataset : expand = none ∧ (ex = true ↔ 1 < rx.groups ∨ given ≠ none ∨ rx.names ≠ []) ∨ expand = some ex ∧ (ex = false → rx.groups = 1)

/-- C306: for a pattern with groups, and texts of bytes or a pattern of type str, `extract` gives an array, or a Dataset with
a column for every group under different names; every cell is what the group took, the fill value where the pattern is not found,
and None where the group took no part -/
theorem extract_exact (re : String → Option Rx) (arr : Arr) (regex : Txt) (rx : Rx) (hr : re regex.s = some rx) (ok : rx.Ok)
    (hg : 0 < rx.groups) (hk : arr.kind = .bytes ∨ regex.kind = .str) (expand : Option Bool) (fillna : String)
    (names : Option (List String)) (ns : List String) (ex : Bool) (ha : Asked rx expand names ns ex) (hn : ns.Nodup) :
    ∃ r, extract re arr regex expand fillna names = .ok r ∧
      (ex = false → ∃ l, r = .array l ∧ List.Forall₂ (fun s c => GroupCell' fillna 0 (rx.search s) c) arr.strs l) ∧
      (ex = true → ∃ d : Dict String (List Cell), r = .dataset d ∧ d.keys = ns ∧
        ∀ (j : Nat) (n : String), ns[j]? = some n → ∃ col, d.get n = some col ∧
          List.Forall₂ (fun s c => GroupCell' fillna j (rx.search s) c) arr.strs col) := by
  have h1 : withGroup re arr.kind regex = .ok (encodeFor arr.kind regex, rx) := by
    have : (encodeFor arr.kind regex).s = regex.s := by unfold encodeFor; split <;> rfl
    simp [withGroup, this, hr, Nat.pos_iff_ne_zero.1 hg]
  have h2 : agrees arr (encodeFor arr.kind regex) = true := by
    unfold agrees encodeFor
    cases hA : arr.kind
    · simp
    · rcases hk with hk | hk
      · rw [hA] at hk; cases hk
      · simp [hk]
  have h3 : expandOf rx expand names = .ok ex := by
    rcases ha.dataset with ⟨rfl, h⟩ | ⟨rfl, h⟩
    · unfold expandOf
      dsimp only
      congr 1
      rw [Bool.eq_iff_iff, h]
      cases names <;> cases hh : rx.names <;> simp [hh]
    · unfold expandOf
      dsimp only
      cases ex with
      | true => rfl
      | false => simp [h rfl]
  have h4 : namesOf rx names = .ok ns := by
    rcases ha.names with ⟨rfl, h⟩ | ⟨rfl, h⟩
    · simp [namesOf, h]
    · rw [default_unique _ _ ok.once ns _ h (default_names rx ok)]; rfl
  have hl : ns.length = rx.groups := by
    rcases ha.names with ⟨-, h⟩ | ⟨-, h⟩
    · exact h
    · exact h.1
  have hcol : ∀ j, j < rx.groups → (columns rx fillna arr.strs)[j]? =
      some (arr.strs.map fun s => cellOf fillna j (rx.search s)) := by
    intro j hj
    unfold columns
    rw [List.getElem?_map, List.getElem?_range hj]; rfl
  have hspec : ∀ j, j < rx.groups → List.Forall₂ (fun s c => GroupCell' fillna j (rx.search s) c) arr.strs
      (arr.strs.map fun s => cellOf fillna j (rx.search s)) := by
    intro j hj
    generalize arr.strs = l
    induction l with
    | nil => exact .nil
    | cons s l ih => exact .cons (cell_spec rx ok fillna j hj s) ih
  unfold extract
  rw [h1]
  dsimp only
  rw [h3]
  dsimp only
  rw [h4]
  dsimp only
  rw [if_pos h2]
  cases ex with
  | false =>
    refine ⟨_, rfl, fun _ => ⟨_, rfl, ?_⟩, fun h => by cases h⟩
    have : (columns rx fillna arr.strs).headD [] = arr.strs.map fun s => cellOf fillna 0 (rx.search s) := by
      have := hcol 0 hg
      cases hc : columns rx fillna arr.strs with
      | nil => rw [hc] at this; cases this
      | cons c cs => rw [hc] at this; simpa using this
    rw [this]
    exact hspec 0 hg
  | true =>
    refine ⟨_, rfl, fun h => (by cases h), fun _ => ⟨_, rfl, ?_, ?_⟩⟩
    · rw [dictOf_nodup]
      · unfold Dict.keys
        exact List.map_fst_zip (by unfold columns; simp [hl])
      · rw [List.map_fst_zip (by unfold columns; simp [hl])]; exact hn
    · intro j n hj
      have hjl : j < rx.groups := by rw [← hl]; exact (List.getElem?_eq_some_iff.1 hj).1
      refine ⟨_, ?_, hspec j hjl⟩
      have hk : ((ns.zip (columns rx fillna arr.strs)).map Prod.fst) = ns :=
        List.map_fst_zip (by unfold columns; simp [hl])
      rw [dictOf_nodup _ (by rw [hk]; exact hn)]
      refine (Dict.get_iff (by unfold Dict.keys; rw [hk]; exact hn) _ _).2 ?_
      exact List.mem_iff_getElem?.2 ⟨j, List.getElem?_zip_eq_some.2 ⟨hj, hcol j hjl⟩⟩

/-- C306: where every group takes part in every match, the cells are the documented ones -/
theorem cells_partial (fillna : String) (j : Nat) (f : Found) (c : Cell) (hf : ∀ gs, f = some gs → none ∉ gs)
    (h : GroupCell' fillna j f c) : GroupCell fillna j f c := by
  cases h with
  | took gs s h => exact .took gs s h
  | unused gs h => exact absurd (List.mem_iff_getElem?.2 ⟨j, h⟩) (hf gs rfl)
  | noMatch => exact .noMatch

/-- C306: for texts of bytes a pattern without groups gives the whole match; `hw` is what brackets mean -/
theorem plain_exact (re : String → Option Rx) (strs : List String) (regex : Txt) (rx rx' : Rx) (hr : re regex.s = some rx)
    (hg : rx.groups = 0) (hr' : re ("(" ++ regex.s ++ ")") = some rx') (hg' : rx'.groups = 1) (hn' : rx'.names = [])
    (hw : ∀ s, rx'.search s = (rx.whole s).map fun m => [some m]) (fillna : String) :
    extract re ⟨.bytes, strs⟩ regex none fillna none = .ok (.array (strs.map fun s => .text ((rx.whole s).getD fillna))) := by
  have h1 : withGroup re .bytes regex = .ok (⟨.bytes, "(" ++ regex.s ++ ")"⟩, rx') := by
    simp [withGroup, encodeFor, hr, hg, hr']
  unfold extract
  rw [h1]
  simp only [expandOf, hg', hn', namesOf, agrees, columns]
  simp only [Nat.lt_irrefl, decide_false, Option.isSome_none, Bool.false_or, List.isEmpty_nil, Bool.not_true, decide_true,
    Bool.or_true, if_true, Bool.false_eq_true, if_false, List.range_one, List.map_cons, List.map_nil, List.headD_cons]
  congr 2
  refine List.map_congr_left fun s _ => ?_
  rw [hw]
  cases rx.whole s <;> rfl

private def orRx : Rx := ⟨2, [], fun s => if s = "a" then some [some "a", none] else if s = "b" then some [none, some "b"] else none,
  fun _ => none, fun _ s => s⟩

private theorem orRx_ok : orRx.Ok := by
  refine ⟨?_, by simp [orRx], by simp [orRx]⟩
  intro s gs h
  simp only [orRx] at h ⊢
  split at h
  · cases h; rfl
  · split at h
    · cases h; rfl
    · cases h

example : Asked orRx none none ["group_0", "group_1"] true := ⟨.inr ⟨rfl, default_names orRx orRx_ok⟩, .inl ⟨rfl, by decide⟩⟩

/-- C306: the pattern `(a)|(b)` with `fillna="x"`: the cell of the first group for "b" is None -/
theorem none_counterexample :
    ¬ ∀ (rx : Rx), rx.Ok → ∀ (fillna s : String) (j : Nat) (c : Cell), j < rx.groups →
      GroupCell' fillna j (rx.search s) c → GroupCell fillna j (rx.search s) c := by
  intro h
  have := h orRx orRx_ok "x" "b" 0 .none (by decide) (.unused [none, some "b"] rfl)
  generalize hc : Cell.none = c at this
  cases this <;> cases hc

/-- C306: with texts of type str a pattern without groups raises AttributeError, with bytes it does not -/
theorem str_counterexample :
    ∃ (re : String → Option Rx) (strs : List String) (regex : Txt),
      extract re ⟨.str, strs⟩ regex none "" none = .error "AttributeError: decode" ∧
      extract re ⟨.bytes, strs⟩ regex none "" none = .ok (.array [.text "ab"]) := by
  refine ⟨fun p => if p = "ab" then some toyRx else if p = "(ab)" then some ⟨1, [], fun s => if s = "ab" then some [some "ab"] else none,
    fun _ => none, fun _ s => s⟩ else none, ["ab"], ⟨.str, "ab"⟩, by decide +kernel, by decide +kernel⟩

/-- C306: two groups of one name: a column is lost -/
theorem names_counterexample :
    extract (fun _ => some orRx) ⟨.bytes, ["a"]⟩ ⟨.str, "(a)|(b)"⟩ none "" (some ["n", "n"]) = .ok (.dataset [("n", [.none])]) := by
  decide +kernel

/-- C306: `apply_unique` does not matter, neither for results nor for exceptions -/
theorem extract_unique (re : String → Option Rx) (uniq : List String → List String × List Nat) (arr : Arr)
    (h : Unique arr.strs (uniq arr.strs)) (regex : Txt) (expand : Option Bool) (fillna : String) (names : Option (List String)) :
    extractUnique uniq re arr regex expand fillna names = extract re arr regex expand fillna names := by
  have he := unique_empty h
  have ha : ∀ t, agrees ⟨arr.kind, (uniq arr.strs).1⟩ t = agrees arr t := by
    intro t; unfold agrees; dsimp only; rw [he]
  have hcol : ∀ rx : Rx, columns rx fillna arr.strs =
      (columns rx fillna (uniq arr.strs).1).map fun c => (uniq arr.strs).2.filterMap fun i => c[i]? := by
    intro rx
    unfold columns
    rw [List.map_map]
    refine List.map_congr_left fun j _ => ?_
    exact (filterMap_get _ h).symm
  unfold extractUnique extract
  dsimp only
  cases withGroup re arr.kind regex with
  | error e => rfl
  | ok p =>
    obtain ⟨t, rx⟩ := p
    dsimp only
    cases expandOf rx expand names with
    | error e => rfl
    | ok ex =>
      dsimp only
      cases namesOf rx names with
      | error e => rfl
      | ok ns =>
        dsimp only
        rw [ha]
        cases agrees arr t with
        | false => rfl
        | true =>
          simp only [if_true]
          rw [hcol]
          cases ex with
          | false =>
            simp only [Bool.false_eq_true, if_false, takeRows]
            cases columns rx fillna (uniq arr.strs).1 with
            | nil => simp
            | cons c cs => rfl
          | true =>
            simp only [if_true, takeRows]
            congr 2
            generalize columns rx fillna (uniq arr.strs).1 = cols
            generalize (uniq arr.strs).2 = idx
            unfold dictOf
            have key : ∀ (l : List (String × List Cell)) (d : Dict String (List Cell)) (f : List Cell → List Cell),
                (l.foldl (fun d e => d.set e.1 e.2) d).map (fun e => (e.1, f e.2)) =
                  (l.map fun e => (e.1, f e.2)).foldl (fun d e => Dict.set d e.1 e.2) (d.map fun e => (e.1, f e.2)) := by
              intro l
              induction l with
              | nil => intro d f; rfl
              | cons e l ih =>
                intro d f
                rw [List.foldl_cons, ih, List.map_cons, List.foldl_cons]
                congr 1
                by_cases hm : e.1 ∈ d.keys
                · rw [Dict.set_of_mem hm, Dict.set_of_mem (by simpa [Dict.keys, List.map_map, Function.comp_def] using hm)]
                  rw [List.map_map, List.map_map]
                  refine List.map_congr_left fun x _ => ?_
                  simp only [Function.comp]
                  split <;> rfl
                · rw [Dict.set_of_notMem hm, Dict.set_of_notMem (by simpa [Dict.keys, List.map_map, Function.comp_def] using hm)]
                  simp
            rw [key (ns.zip cols) [] (fun c => idx.filterMap fun i => c[i]?)]
            congr 1
            rw [List.zip_map_right]
            rfl

/-! ## label_filter -/

theorem inside_iff (a x : String) : inside a x = true ↔ Occurs a x := by
  have mt : ∀ (l t : List Char), t ∈ l.tails ↔ t <:+ l := by
    intro l
    induction l with
    | nil => intro t; simp
    | cons c l ih => intro t; rw [List.tails, List.mem_cons, ih, List.suffix_cons_iff]
  unfold inside Occurs
  rw [List.any_eq_true]
  constructor
  · rintro ⟨t, ht, hp⟩
    rw [mt] at ht
    obtain ⟨l, hl⟩ := ht
    obtain ⟨r, hr⟩ := List.isPrefixOf_iff_prefix.1 hp
    exact ⟨l, r, by rw [← hl, ← hr]⟩
  · rintro ⟨l, r, h⟩
    refine ⟨a.toList ++ r, by rw [mt, h]; exact List.suffix_append _ _, List.isPrefixOf_iff_prefix.2 (List.prefix_append _ _)⟩

theorem foldl_or (n : Nat) (ms : List (List Bool)) (m : List Bool) (hm : m.length = n) (h : ∀ x ∈ ms, x.length = n) :
    (ms.foldl (List.zipWith (· || ·)) m).length = n ∧
    ∀ i : Nat, (ms.foldl (List.zipWith (· || ·)) m)[i]? = some true ↔ ∃ x ∈ m :: ms, x[i]? = some true := by
  induction ms generalizing m with
  | nil => simp [hm]
  | cons x ms ih =>
    have hx := h x (by simp)
    have hl : (List.zipWith (· || ·) m x).length = n := by simp [hm, hx]
    obtain ⟨h1, h2⟩ := ih (List.zipWith (· || ·) m x) hl (fun y hy => h y (by simp [hy]))
    refine ⟨h1, fun i => ?_⟩
    rw [List.foldl_cons, h2]
    have key : (List.zipWith (· || ·) m x)[i]? = some true ↔ m[i]? = some true ∨ x[i]? = some true := by
      rw [List.getElem?_zipWith]
      by_cases hi : i < n
      · rw [List.getElem?_eq_getElem (by omega), List.getElem?_eq_getElem (by omega)]
        simp
      · rw [List.getElem?_eq_none (by omega), List.getElem?_eq_none (by omega)]
        simp
    simp only [List.mem_cons, exists_eq_or_imp, key, or_assoc]

theorem maskOr_exact (n : Nat) (ms : List (List Bool)) (hne : ms ≠ []) (h : ∀ x ∈ ms, x.length = n) :
    ∃ m, maskOr ms = .ok m ∧ m.length = n ∧ ∀ i : Nat, m[i]? = some true ↔ ∃ x ∈ ms, x[i]? = some true := by
  cases ms with
  | nil => exact absurd rfl hne
  | cons m ms =>
    obtain ⟨h1, h2⟩ := foldl_or n ms m (h m (by simp)) (fun x hx => h x (by simp [hx]))
    exact ⟨_, rfl, h1, h2⟩

theorem sequence_ok {α W : Type} (l : List α) (f : α → Except String W) (g : α → W) (h : ∀ a ∈ l, f a = .ok (g a)) :
    sequence (l.map f) = .ok (l.map g) := by
  induction l with
  | nil => rfl
  | cons a l ih =>
    rw [List.map_cons, h a (by simp), sequence, ih (fun a ha => h a (by simp [ha]))]
    rfl

/-- C307: `label_filter(items=...)` keeps the rows in which a label is one of the items -/
theorem items_exact (re : String → Option Rx) (labels : List Arr) (items : Texts) (n : Nat) (hl : labels ≠ []) (hi : items.list ≠ [])
    (hn : ∀ c ∈ labels, c.strs.length = n) :
    ∃ m, labelFilter re labels (some items) none none = .ok m ∧ m.length = n ∧
      ∀ i : Nat, m[i]? = some true ↔ ∃ c ∈ labels, ∃ a ∈ items.list, c.strs[i]? = some a := by
  obtain ⟨c0, cs, rfl⟩ := List.exists_cons_of_ne_nil hl
  obtain ⟨a0, as, ha⟩ := List.exists_cons_of_ne_nil hi
  have hne : ((c0 :: cs).flatMap fun c => items.list.map fun a => c.strs.map fun x => decide (a = x)) ≠ [] := by
    simp [ha]
  obtain ⟨m, h1, h2, h3⟩ := maskOr_exact n _ hne (by
    intro x hx
    simp only [List.mem_flatMap, List.mem_map] at hx
    obtain ⟨c, hc, a, -, rfl⟩ := hx
    simp [hn c (by simpa using hc)])
  refine ⟨m, h1, h2, fun i => (h3 i).trans ?_⟩
  constructor
  · rintro ⟨x, hx, hxi⟩
    simp only [List.mem_flatMap, List.mem_map] at hx
    obtain ⟨c, hc, a, haa, rfl⟩ := hx
    rw [List.getElem?_map, Option.map_eq_some_iff] at hxi
    obtain ⟨y, hy, hya⟩ := hxi
    exact ⟨c, hc, a, haa, by rw [hy, of_decide_eq_true hya]⟩
  · rintro ⟨c, hc, a, haa, hca⟩
    refine ⟨c.strs.map fun x => decide (a = x), ?_, by rw [List.getElem?_map, hca]; simp⟩
    simp only [List.mem_flatMap, List.mem_map]
    exact ⟨c, hc, a, haa, rfl⟩

theorem apply_str (f : String → Bool) (c : Arr) (hk : c.kind = .str) (hne : c.strs ≠ []) : applyCol f c = .ok (c.strs.map f) := by
  simp [applyCol, hk, hne]

/-- C307, partial: `like` keeps the rows in which one of the texts occurs in a label, `regex` those in which the pattern is
found in a label; for labels of type str and at least one row.  (Missing: labels of bytes, which are the usual ones, see
`bytes_counterexample`.) -/
theorem search_partial (re : String → Option Rx) (labels : List Arr) (n : Nat) (hl : labels ≠ []) (h0 : 0 < n)
    (hn : ∀ c ∈ labels, c.strs.length = n) (hk : ∀ c ∈ labels, c.kind = .str) :
    (∀ like : Texts, like.list ≠ [] → like ≠ .one "" →
      ∃ m, labelFilter re labels none (some like) none = .ok m ∧ m.length = n ∧
        ∀ i : Nat, m[i]? = some true ↔ ∃ c ∈ labels, ∃ a ∈ like.list, ∃ x, c.strs[i]? = some x ∧ Occurs a x) ∧
    (∀ p rx, p ≠ "" → re p = some rx →
      ∃ m, labelFilter re labels none none (some p) = .ok m ∧ m.length = n ∧
        ∀ i : Nat, m[i]? = some true ↔ ∃ c ∈ labels, ∃ x, c.strs[i]? = some x ∧ rx.search x ≠ none) := by
  have hemp : labels.isEmpty = false := by cases labels; exact absurd rfl hl; rfl
  have hs : ∀ c ∈ labels, c.strs ≠ [] := by
    intro c hc h
    have := hn c hc
    rw [h] at this; simp at this; omega
  constructor
  · intro like hi h1
    have ht : like.truth = true := by
      cases like with
      | one s => simpa [Texts.truth] using h1
      | many l => simpa [Texts.truth, Texts.list, List.isEmpty_iff] using hi
    have he : (labels.flatMap fun c => like.list.map fun a => applyCol (inside a) c) =
        (labels.flatMap fun c => like.list.map fun a => (a, c)).map fun p => applyCol (inside p.1) p.2 := by
      rw [List.map_flatMap]; simp [List.map_map, Function.comp_def]
    have hseq := sequence_ok (labels.flatMap fun c => like.list.map fun a => (a, c))
      (fun p => applyCol (inside p.1) p.2) (fun p => p.2.strs.map (inside p.1)) (by
        intro p hp
        simp only [List.mem_flatMap, List.mem_map] at hp
        obtain ⟨c, hc, a, -, rfl⟩ := hp
        exact apply_str _ c (hk c hc) (hs c hc))
    obtain ⟨c0, cs, hc0⟩ := List.exists_cons_of_ne_nil hl
    obtain ⟨a0, as, ha⟩ := List.exists_cons_of_ne_nil hi
    obtain ⟨m, m1, m2, m3⟩ := maskOr_exact n ((labels.flatMap fun c => like.list.map fun a => (a, c)).map
      fun p => p.2.strs.map (inside p.1)) (by simp [hc0, ha]) (by
        intro x hx
        simp only [List.mem_map, List.mem_flatMap] at hx
        obtain ⟨p, ⟨c, hc, a, -, rfl⟩, rfl⟩ := hx
        simp [hn c hc])
    refine ⟨m, ?_, m2, fun i => (m3 i).trans ?_⟩
    · simp only [labelFilter, hemp, ht, he, hseq, andThen, m1]
      rfl
    · constructor
      · rintro ⟨x, hx, hxi⟩
        simp only [List.mem_map, List.mem_flatMap] at hx
        obtain ⟨p, ⟨c, hc, a, haa, rfl⟩, rfl⟩ := hx
        rw [List.getElem?_map, Option.map_eq_some_iff] at hxi
        obtain ⟨y, hy, hya⟩ := hxi
        exact ⟨c, hc, a, haa, y, hy, (inside_iff a y).1 hya⟩
      · rintro ⟨c, hc, a, haa, y, hy, hya⟩
        refine ⟨c.strs.map (inside a), ?_, by rw [List.getElem?_map, hy]; simp [(inside_iff a y).2 hya]⟩
        simp only [List.mem_map, List.mem_flatMap]
        exact ⟨(a, c), ⟨c, hc, a, haa, rfl⟩, rfl⟩
  · intro p rx hp hr
    have hseq := sequence_ok labels (applyCol fun x => (rx.search x).isSome) (fun c => c.strs.map fun x => (rx.search x).isSome)
      (fun c hc => apply_str _ c (hk c hc) (hs c hc))
    obtain ⟨m, m1, m2, m3⟩ := maskOr_exact n (labels.map fun c => c.strs.map fun x => (rx.search x).isSome)
      (by simpa using hl) (by
        intro x hx
        obtain ⟨c, hc, rfl⟩ := List.mem_map.1 hx
        simp [hn c hc])
    refine ⟨m, ?_, m2, fun i => (m3 i).trans ?_⟩
    · simp only [labelFilter, hemp, hr, hseq, andThen, m1, if_neg hp]
      rfl
    · constructor
      · rintro ⟨x, hx, hxi⟩
        obtain ⟨c, hc, rfl⟩ := List.mem_map.1 hx
        rw [List.getElem?_map, Option.map_eq_some_iff] at hxi
        obtain ⟨y, hy, hya⟩ := hxi
        exact ⟨c, hc, y, hy, by rw [← Option.isSome_iff_ne_none]; exact hya⟩
      · rintro ⟨c, hc, y, hy, hya⟩
        exact ⟨_, List.mem_map.2 ⟨c, hc, rfl⟩, by
          rw [List.getElem?_map, hy]; simp [Option.isSome_iff_ne_none.2 hya]⟩

example : labelFilter (fun _ => none) [⟨.str, ["mary", "ray", "joe"]⟩] none (some (.many ["ar", "j"])) none =
    .ok [true, false, true] := by decide +kernel

/-- C307: with labels of bytes `like` and `regex` raise TypeError -/
theorem bytes_counterexample (re : String → Option Rx) (a p : String) (rx : Rx) (ha : a ≠ "") (hp : p ≠ "") (hr : re p = some rx)
    (x : String) (xs : List String) :
    (∃ e, labelFilter re [⟨.bytes, x :: xs⟩] none (some (.one a)) none = .error e) ∧
    (∃ e, labelFilter re [⟨.bytes, x :: xs⟩] none none (some p) = .error e) := by
  refine ⟨⟨"TypeError: a bytes-like object is required, not 'str'", ?_⟩, ⟨"TypeError: a bytes-like object is required, not 'str'", ?_⟩⟩
  · simp [labelFilter, Texts.truth, Texts.list, ha, applyCol, sequence, andThen]
  · simp [labelFilter, hp, hr, applyCol, sequence, andThen]

/-- C307: none or more than one of the arguments is refused -/
theorem exclusive_refused (re : String → Option Rx) (labels : List Arr) (items like : Option Texts) (regex : Option String)
    (h : ([items.isSome, like.isSome, regex.isSome].filter id).length ≠ 1 ∨ labels = []) :
    ∃ e, labelFilter re labels items like regex = .error e := by
  unfold labelFilter
  split
  · exact ⟨_, rfl⟩
  · rename_i hl
    rcases h with h | h
    · cases items <;> cases like <;> cases regex <;> first | exact ⟨_, rfl⟩ | exact absurd rfl h
    · exact absurd (by rw [h]; rfl) hl

example : ([(some (Texts.one "a")).isSome, (none : Option Texts).isSome, (some "b").isSome].filter id).length ≠ 1 := by decide

/-- C306: names are refused unless there is one for each group -/
theorem names_refused (re : String → Option Rx) (arr : Arr) (regex : Txt) (expand : Option Bool) (fillna : String) (ns : List String)
    (t : Txt) (rx : Rx) (hg : withGroup re arr.kind regex = .ok (t, rx)) (h : ns.length ≠ rx.groups) :
    ∃ e, extract re arr regex expand fillna (some ns) = .error e := by
  unfold extract
  rw [hg]
  dsimp only
  cases expandOf rx expand (some ns) with
  | error e => exact ⟨e, rfl⟩
  | ok ex =>
    dsimp only [namesOf]
    rw [if_neg h]
    exact ⟨_, rfl⟩

end Verif.Regex
