import Verif.Make.Model
import Verif.Items.Dict
import Verif.Idx.Props
import Verif.Merge2.Names
/-!
# `concat_columns`, `from_rows`, `from_tagged_rows`
-/
namespace Verif.Make
open Verif.Items (Dict)
open Verif.Idx (cell_eq_get)

variable {V : Type}

/-! ## `concat_columns` -/

/-- what is known in the loop after the columns `pre` -/
structure CCInv (dup : OnDup) (mis : OnMismatch) (pre : List (String × List V)) (s : CC V) : Prop where
  columns : ∀ c, c ∈ s.columns ↔ c ∈ pre.map Prod.fst
  keys : Dict.keys s.out = (pre.map Prod.fst).eraseDups
  dups : s.dups = true ↔ mis ≠ .ignore ∧ ¬ (pre.map Prod.fst).Nodup
  raise : dup = .raise → (pre.map Prod.fst).Nodup
  first : dup = .first → ∀ c a, Dict.get s.out c = some a → FirstCol pre c a
  last : dup ≠ .first → ∀ c a, Dict.get s.out c = some a → LastCol pre c a

theorem get_append_cases {A : Type} (l : List A) (x : A) (k : Nat) (e : A) (h : (l ++ [x])[k]? = some e) :
    (k < l.length ∧ l[k]? = some e) ∨ (k = l.length ∧ e = x) := by
  by_cases hk : k < l.length
  · rw [List.getElem?_append_left hk] at h; exact Or.inl ⟨hk, h⟩
  · rw [List.getElem?_append_right (by omega)] at h
    have : k - l.length = 0 := by
      by_contra hne
      rw [List.getElem?_eq_none (by simp; omega)] at h
      simp at h
    rw [this] at h
    simp at h
    exact Or.inr ⟨by omega, h.symm⟩

theorem FirstCol.append {A : Type} {l : List (String × A)} {c : String} {a : A} (h : FirstCol l c a) (x : String × A) :
    FirstCol (l ++ [x]) c a := by
  obtain ⟨k, h1, h2⟩ := h
  have hk : k < l.length := (List.getElem?_eq_some_iff.1 h1).1
  refine ⟨k, by rw [List.getElem?_append_left hk]; exact h1, fun k' hk' e he => ?_⟩
  rw [List.getElem?_append_left (by omega)] at he
  exact h2 k' hk' e he

theorem LastCol.append {A : Type} {l : List (String × A)} {c : String} {a : A} (h : LastCol l c a) {x : String × A} (hx : x.1 ≠ c) :
    LastCol (l ++ [x]) c a := by
  obtain ⟨k, h1, h2⟩ := h
  have hk : k < l.length := (List.getElem?_eq_some_iff.1 h1).1
  refine ⟨k, by rw [List.getElem?_append_left hk]; exact h1, fun k' hk' e he => ?_⟩
  rcases get_append_cases l x k' e he with ⟨_, h3⟩ | ⟨_, rfl⟩
  · exact h2 k' hk' e h3
  · exact hx

theorem LastCol.self {A : Type} (l : List (String × A)) (x : String × A) : LastCol (l ++ [x]) x.1 x.2 := by
  refine ⟨l.length, by simp, fun k' hk' e he => ?_⟩
  rw [List.getElem?_eq_none (by simp; omega)] at he
  simp at he

theorem FirstCol.self {A : Type} (l : List (String × A)) (x : String × A) (h : x.1 ∉ l.map Prod.fst) : FirstCol (l ++ [x]) x.1 x.2 := by
  refine ⟨l.length, by simp, fun k' hk' e he => ?_⟩
  rw [List.getElem?_append_left hk'] at he
  intro hc
  exact h (hc ▸ List.mem_map_of_mem (List.mem_of_getElem? he))

theorem eraseDups_snoc_mem {l : List String} {c : String} (h : c ∈ l) : (l ++ [c]).eraseDups = l.eraseDups := by
  rw [List.eraseDups_append]
  simp [List.removeAll, h]

theorem eraseDups_snoc_new {l : List String} {c : String} (h : c ∉ l) : (l ++ [c]).eraseDups = l.eraseDups ++ [c] := by
  rw [List.eraseDups_append]
  simp [List.removeAll, h, List.eraseDups_cons]

theorem nodup_snoc {l : List String} {c : String} : (l ++ [c]).Nodup ↔ l.Nodup ∧ c ∉ l := by
  rw [List.nodup_append]
  constructor
  · rintro ⟨h1, _, h3⟩
    exact ⟨h1, fun hc => h3 c hc c (by simp) rfl⟩
  · rintro ⟨h1, h2⟩
    refine ⟨h1, by simp, ?_⟩
    intro a ha b hb hab
    simp at hb
    subst hb; subst hab
    exact h2 ha

theorem ccStep_inv {dup : OnDup} {mis : OnMismatch} {pre : List (String × List V)} {s s' : CC V} {e : String × List V}
    (hi : CCInv dup mis pre s) (h : ccStep dup mis s e = .ok s') : CCInv dup mis (pre ++ [e]) s' := by
  unfold ccStep at h
  by_cases hc : e.1 ∈ s.columns
  · rw [if_pos hc] at h
    have hp : e.1 ∈ pre.map Prod.fst := (hi.columns _).1 hc
    have hkk : e.1 ∈ Dict.keys s.out := by rw [hi.keys]; exact List.mem_eraseDups.2 hp
    have hcols : ∀ c, c ∈ s.columns ↔ c ∈ (pre ++ [e]).map Prod.fst := by
      intro c
      rw [hi.columns, List.map_append, List.mem_append]
      constructor
      · exact Or.inl
      · rintro (h | h)
        · exact h
        · simp at h; rw [h]; exact hp
    have hdup : ¬ ((pre ++ [e]).map Prod.fst).Nodup := by
      rw [List.map_append, List.map_cons, List.map_nil, nodup_snoc]
      exact fun h => h.2 hp
    have hd : ∀ (o : Table V), (if mis ≠ .ignore then { s with dups := true } else s).dups = true ↔ mis ≠ .ignore ∧ ¬ ((pre ++ [e]).map Prod.fst).Nodup := by
      intro _
      by_cases hm : mis = .ignore
      · subst hm
        have := hi.dups
        simp only [ne_eq, not_true_eq_false, false_and, iff_false] at this
        simp [this]
      · rw [if_pos hm]; exact ⟨fun _ => ⟨hm, hdup⟩, fun _ => rfl⟩
    have hcc : (if mis ≠ .ignore then { s with dups := true } else s).columns = s.columns := by split <;> rfl
    have hco : (if mis ≠ .ignore then { s with dups := true } else s).out = s.out := by split <;> rfl
    have hkeys : Dict.keys s.out = ((pre ++ [e]).map Prod.fst).eraseDups := by
      rw [hi.keys, List.map_append, List.map_cons, List.map_nil, eraseDups_snoc_mem hp]
    dsimp only at h
    cases dup with
    | raise => simp at h
    | first =>
      simp only [Except.ok.injEq] at h
      subst h
      refine ⟨by rw [hcc]; exact hcols, by rw [hco]; exact hkeys, hd [], by simp, ?_, by simp⟩
      intro hf c a ha
      rw [hco] at ha
      exact (hi.first hf c a ha).append e
    | last =>
      simp only [Except.ok.injEq] at h
      subst h
      refine ⟨by rw [hcc]; exact hcols, ?_, hd [], by simp, by simp, ?_⟩
      · dsimp only
        rw [hco, Dict.keys_set_of_mem hkk]; exact hkeys
      · intro hf c a ha
        dsimp only at ha
        rw [hco, Dict.get_set] at ha
        by_cases hce : c = e.1
        · rw [if_pos hce] at ha
          cases ha
          subst hce
          exact LastCol.self pre e
        · rw [if_neg hce] at ha
          exact (hi.last hf c a ha).append (Ne.symm hce)
  · rw [if_neg hc, Except.ok.injEq] at h
    subst h
    have hp : e.1 ∉ pre.map Prod.fst := fun h => hc ((hi.columns _).2 h)
    have hkk : e.1 ∉ Dict.keys s.out := by rw [hi.keys]; exact fun h => hp (List.mem_eraseDups.1 h)
    refine ⟨?_, ?_, ?_, ?_, ?_, ?_⟩
    · intro c
      simp only [List.map_append, List.map_cons, List.map_nil, List.mem_append, List.mem_cons, hi.columns, List.not_mem_nil, or_false]
      exact or_comm
    · dsimp only
      rw [Dict.keys_set_of_notMem hkk, hi.keys, List.map_append, List.map_cons, List.map_nil, eraseDups_snoc_new hp]
    · dsimp only
      rw [hi.dups, List.map_append, List.map_cons, List.map_nil, nodup_snoc]
      simp [hp]
    · intro hr
      rw [List.map_append, List.map_cons, List.map_nil, nodup_snoc]
      exact ⟨hi.raise hr, hp⟩
    · intro hf c a ha
      dsimp only at ha
      rw [Dict.get_set] at ha
      by_cases hce : c = e.1
      · rw [if_pos hce] at ha
        cases ha
        subst hce
        exact FirstCol.self pre e hp
      · rw [if_neg hce] at ha
        exact (hi.first hf c a ha).append e
    · intro hf c a ha
      dsimp only at ha
      rw [Dict.get_set] at ha
      by_cases hce : c = e.1
      · rw [if_pos hce] at ha
        cases ha
        subst hce
        exact LastCol.self pre e
      · rw [if_neg hce] at ha
        exact (hi.last hf c a ha).append (Ne.symm hce)

theorem cc_inv {dup : OnDup} {mis : OnMismatch} : ∀ (l pre : List (String × List V)) (s s' : CC V), CCInv dup mis pre s →
    l.foldlM (ccStep dup mis) s = .ok s' → CCInv dup mis (pre ++ l) s' := by
  intro l
  induction l with
  | nil =>
    intro pre s s' hi h
    simp [pure, Except.pure] at h
    subst h
    simpa using hi
  | cons e l ih =>
    intro pre s s' hi h
    rw [List.foldlM_cons] at h
    simp only [bind, Except.bind] at h
    cases he : ccStep dup mis s e with
    | error er => rw [he] at h; simp at h
    | ok s1 =>
      rw [he] at h
      have := ih (pre ++ [e]) s1 s' (ccStep_inv hi he) h
      simpa using this

theorem cc_init (dup : OnDup) (mis : OnMismatch) : CCInv dup mis ([] : List (String × List V)) ⟨[], [], false⟩ := by
  refine ⟨by simp, by simp [Dict.keys], by simp, by simp, by simp, by simp⟩

/-- the loop ends unless a name is repeated and `on_duplicate='raise'` -/
theorem cc_ok {dup : OnDup} {mis : OnMismatch} : ∀ (l pre : List (String × List V)) (s : CC V), CCInv dup mis pre s →
    (dup = .raise → ((pre ++ l).map Prod.fst).Nodup) → ∃ s', l.foldlM (ccStep dup mis) s = .ok s' := by
  intro l
  induction l with
  | nil => intro pre s _ _; exact ⟨s, rfl⟩
  | cons e l ih =>
    intro pre s hi hn
    have hstep : ∃ s1, ccStep dup mis s e = .ok s1 := by
      unfold ccStep
      by_cases hc : e.1 ∈ s.columns
      · rw [if_pos hc]
        cases dup with
        | raise =>
          exfalso
          have hp := (hi.columns _).1 hc
          have := hn rfl
          rw [List.map_append, List.map_cons, List.nodup_append] at this
          exact this.2.2 e.1 hp e.1 (by simp) rfl
        | first => exact ⟨_, rfl⟩
        | last => exact ⟨_, rfl⟩
      · rw [if_neg hc]; exact ⟨_, rfl⟩
    obtain ⟨s1, h1⟩ := hstep
    obtain ⟨s', h2⟩ := ih (pre ++ [e]) s1 (ccStep_inv hi h1) (by simpa using hn)
    refine ⟨s', ?_⟩
    rw [List.foldlM_cons]
    simp only [bind, Except.bind, h1, h2]

theorem cc_error {dup : OnDup} {mis : OnMismatch} : ∀ (l : List (String × List V)) (s : CC V) (er : Err),
    l.foldlM (ccStep dup mis) s = .error er → er = .key := by
  intro l
  induction l with
  | nil => intro s er h; simp [pure, Except.pure] at h
  | cons e l ih =>
    intro s er h
    rw [List.foldlM_cons] at h
    simp only [bind, Except.bind] at h
    cases he : ccStep dup mis s e with
    | error e' =>
      rw [he] at h
      simp only [Except.error.injEq] at h
      subst h
      unfold ccStep at he
      split at he
      · cases dup <;> simp at he
        exact he.symm
      · simp at he
    | ok s1 => rw [he] at h; exact ih s1 er h

/-- what `concat_columns` does with several Datasets (or one that is to be copied) of the same number of rows -/
theorem concat_eq (dsets : List (Table V × Nat)) (n : Nat) (hne : dsets ≠ []) (hn : ∀ d ∈ dsets, Rect d.1 n ∧ d.2 = n) (doCopy : Bool)
    (h1 : dsets.length ≠ 1 ∨ doCopy = true) (dup : OnDup) (mis : OnMismatch) : concatColumns dsets doCopy dup mis =
    match (dsets.flatMap Prod.fst).foldlM (ccStep dup mis) ⟨[], [], false⟩ with
      | .error e => .error e
      | .ok s => if s.dups ∧ mis = .raise then .error .runtime else .ok (s.out, s.dups && mis == .warn) := by
  cases dsets with
  | nil => exact absurd rfl hne
  | cons d ds =>
    rw [concatColumns, if_neg, if_neg]
    · rfl
    · rw [not_not, List.all_eq_true]
      intro x hx
      rw [(hn x (List.mem_cons_of_mem _ hx)).2, (hn d List.mem_cons_self).2]
      simp
    · rintro ⟨a, b⟩
      subst a
      rcases h1 with h | h
      · exact h rfl
      · rw [h] at b; simp at b

/-- **C76** `concat_columns` with `on_duplicate='first'` or `'last'`: every column name once, in the order of first appearance, with the
column of the first (the last) Dataset that has it; a warning exactly when a name is repeated and warnings are asked for. With
`on_mismatch='raise'` a repeated name raises RuntimeError. -/
theorem concat_columns (dsets : List (Table V × Nat)) (n : Nat) (hne : dsets ≠ []) (hn : ∀ d ∈ dsets, Rect d.1 n ∧ d.2 = n) (doCopy : Bool)
    (h1 : dsets.length ≠ 1 ∨ doCopy = true) (dup : OnDup) (hd : dup ≠ .raise) (mis : OnMismatch) :
    (mis = .raise ∧ ¬ ((dsets.flatMap Prod.fst).map Prod.fst).Nodup → concatColumns dsets doCopy dup mis = .error .runtime) ∧
    (mis ≠ .raise ∨ ((dsets.flatMap Prod.fst).map Prod.fst).Nodup → ∃ (t : Table V) (w : Bool), concatColumns dsets doCopy dup mis = .ok (t, w) ∧
      (w = true ↔ mis = .warn ∧ ¬ ((dsets.flatMap Prod.fst).map Prod.fst).Nodup) ∧
      t.map Prod.fst = ((dsets.flatMap Prod.fst).map Prod.fst).eraseDups ∧ Rect t n ∧
      ∀ e ∈ t, (dup = .first → FirstCol (dsets.flatMap Prod.fst) e.1 e.2) ∧ (dup = .last → LastCol (dsets.flatMap Prod.fst) e.1 e.2)) := by
  obtain ⟨s, hs⟩ := cc_ok (mis := mis) (dsets.flatMap Prod.fst) [] ⟨[], [], false⟩ (cc_init dup mis) (fun h => absurd h hd)
  have hi := cc_inv (dsets.flatMap Prod.fst) [] _ s (cc_init dup mis) hs
  rw [List.nil_append] at hi
  rw [concat_eq dsets n hne hn doCopy h1, hs]
  dsimp only
  constructor
  · rintro ⟨rfl, h⟩
    rw [if_pos ⟨hi.dups.2 ⟨by simp, h⟩, rfl⟩]
  · intro h
    have hno : ¬ (s.dups = true ∧ mis = .raise) := by
      rintro ⟨a, rfl⟩
      rcases h with h | h
      · exact h rfl
      · exact (hi.dups.1 a).2 h
    rw [if_neg hno]
    have hknd : (Dict.keys s.out).Nodup := by rw [hi.keys]; exact Verif.Merge2.nodup_eraseDups_beq _
    have hcol : ∀ e ∈ s.out, e ∈ dsets.flatMap Prod.fst := by
      intro e he
      have hg : Dict.get s.out e.1 = some e.2 := Dict.get_of_mem hknd he
      by_cases hf : dup = .first
      · obtain ⟨k, hk, _⟩ := hi.first hf e.1 e.2 hg
        exact List.mem_of_getElem? hk
      · obtain ⟨k, hk, _⟩ := hi.last hf e.1 e.2 hg
        exact List.mem_of_getElem? hk
    refine ⟨s.out, _, rfl, ?_, hi.keys, ⟨hknd, ?_⟩, ?_⟩
    · rw [Bool.and_eq_true, hi.dups]
      cases mis <;> simp
    · intro e he
      obtain ⟨d, hdm, hed⟩ := List.mem_flatMap.1 (hcol e he)
      exact (hn d hdm).1.2 e hed
    · intro e he
      have hg : Dict.get s.out e.1 = some e.2 := Dict.get_of_mem hknd he
      refine ⟨fun hf => hi.first hf e.1 e.2 hg, fun hf => hi.last (by rw [hf]; simp) e.1 e.2 hg⟩

/-- **C76** `concat_columns` with `on_duplicate='raise'`: KeyError exactly when a name is repeated; otherwise all columns in order. -/
theorem concat_columns_raise (dsets : List (Table V × Nat)) (n : Nat) (hne : dsets ≠ []) (hn : ∀ d ∈ dsets, Rect d.1 n ∧ d.2 = n) (doCopy : Bool)
    (h1 : dsets.length ≠ 1 ∨ doCopy = true) (mis : OnMismatch) :
    (((dsets.flatMap Prod.fst).map Prod.fst).Nodup → concatColumns dsets doCopy .raise mis = .ok (dsets.flatMap Prod.fst, false)) ∧
    (¬ ((dsets.flatMap Prod.fst).map Prod.fst).Nodup → concatColumns dsets doCopy .raise mis = .error .key) := by
  rw [concat_eq dsets n hne hn doCopy h1]
  constructor
  · intro hnd
    obtain ⟨s, hs⟩ := cc_ok (mis := mis) (dsets.flatMap Prod.fst) [] ⟨[], [], false⟩ (cc_init .raise mis) (fun _ => hnd)
    have hi := cc_inv (dsets.flatMap Prod.fst) [] _ s (cc_init .raise mis) hs
    rw [List.nil_append] at hi
    rw [hs]
    have hsd : s.dups = false := by
      cases h : s.dups with
      | false => rfl
      | true => exact absurd hnd (hi.dups.1 h).2
    have hout : s.out = dsets.flatMap Prod.fst := by
      have hk : Dict.keys s.out = (dsets.flatMap Prod.fst).map Prod.fst := by rw [hi.keys, Verif.Idx.eraseDups_of_nodup hnd]
      have hknd : (Dict.keys s.out).Nodup := by rw [hk]; exact hnd
      apply List.ext_getElem?
      intro k
      have hlen : s.out.length = (dsets.flatMap Prod.fst).length := by
        have := congrArg List.length hk; simpa [Dict.keys] using this
      by_cases hlt : k < s.out.length
      · have hg : Dict.get s.out s.out[k].1 = some s.out[k].2 := Dict.get_of_mem hknd (List.getElem_mem hlt)
        obtain ⟨j, hj, _⟩ := hi.last (by simp) _ _ hg
        have hkk : (Dict.keys s.out)[k]? = some s.out[k].1 := by rw [Dict.keys, List.getElem?_map, List.getElem?_eq_getElem hlt]; rfl
        have hjj : (Dict.keys s.out)[j]? = some s.out[k].1 := by rw [hk, List.getElem?_map, hj]; rfl
        have hkl : k < (Dict.keys s.out).length := by simpa [Dict.keys] using hlt
        have : k = j := (List.getElem?_inj hkl hknd).1 (by rw [hkk, hjj])
        rw [List.getElem?_eq_getElem hlt]
        subst this
        exact hj.symm
      · rw [List.getElem?_eq_none (by omega), List.getElem?_eq_none (by omega)]
    simp [hsd, hout]
  · intro hnd
    cases h : (dsets.flatMap Prod.fst).foldlM (ccStep .raise mis) ⟨[], [], false⟩ with
    | error e => rw [cc_error _ _ _ h]
    | ok s =>
      have hi := cc_inv (dsets.flatMap Prod.fst) [] _ s (cc_init .raise mis) h
      rw [List.nil_append] at hi
      exact absurd (hi.raise rfl) hnd

/-- **C76** Datasets of different lengths are refused. -/
theorem concat_lengths (dsets : List (Table V × Nat)) (d e : Table V × Nat) (hd : d ∈ dsets) (he : e ∈ dsets) (hne : d.2 ≠ e.2) (doCopy : Bool)
    (dup : OnDup) (mis : OnMismatch) : concatColumns dsets doCopy dup mis = .error .value := by
  cases dsets with
  | nil => simp at hd
  | cons x xs =>
    rw [concatColumns, if_neg, if_pos]
    · rw [List.all_eq_true]
      intro h
      have key : ∀ y ∈ x :: xs, y.2 = x.2 := by
        intro y hy
        rcases List.mem_cons.1 hy with rfl | hy
        · rfl
        · simpa using h y hy
      exact hne ((key d hd).trans (key e he).symm)
    · rintro ⟨rfl, _⟩
      simp at hd he
      exact hne (by rw [hd, he])

example : concatColumns [([("a", [1]), ("b", [2])], 1), ([("b", [3]), ("c", [4])], 1)] true .last .warn =
    .ok ([("a", [1]), ("b", [3]), ("c", [4])], true) := by decide +kernel

end Verif.Make
