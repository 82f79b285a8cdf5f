import Verif.Csv.Model
import Verif.Csv.Spec
import Verif.Make.Rows
import Mathlib.Data.List.Forall2
/-!
# Reading CSV files (C276 - C278)
-/
namespace Verif.Csv
open Verif.Items (Dict)
open Verif.Make (Table fromRows fromTagged dictZip HasRows Rect cell allKeys countKey)

variable {F V : Type}

/-- `conv c` is what a converter that can be called does: the function, or nothing. -/
def Calls (ident : F → V) (cv : String → Conv F V) (conv : String → F → V) (names : List String) : Prop :=
  ∀ c ∈ names, (cv c = .absent ∧ conv c = ident) ∨ cv c = .fn (conv c)

theorem valueRow_length (conv : String → F → V) (names : List String) (r : List F) :
    (valueRow conv names r).length = min names.length r.length := by simp [valueRow]

theorem valueRow_get (conv : String → F → V) (names : List String) (r : List F) (j : Nat) (c : String) (hc : names[j]? = some c) :
    (valueRow conv names r)[j]? = r[j]?.map (conv c) := by
  rw [valueRow, List.getElem?_zipWith, hc]
  cases r[j]? <;> rfl

/-! ## Version 0 -/

theorem column0_ok (ident : F → V) (cv : Conv F V) (g : F → V) (i : Nat) (hg : ∀ x, call0 ident cv x = g x) :
    ∀ (rows : List (List F)), (∀ r ∈ rows, i < r.length) →
      ∃ l, column0 ident cv i rows = .ok l ∧ l.map some = rows.map fun r => r[i]?.map g := by
  intro rows
  induction rows with
  | nil => intro _; exact ⟨[], rfl, rfl⟩
  | cons r rs ih =>
    intro h
    obtain ⟨l, h1, h2⟩ := ih fun r hr => h r (List.mem_cons_of_mem _ hr)
    have hi := h r List.mem_cons_self
    refine ⟨call0 ident cv r[i] :: l, ?_, ?_⟩
    · simp only [column0, List.getElem?_eq_getElem hi, h1]
    · simp only [List.map_cons, h2, List.getElem?_eq_getElem hi, Option.map_some, hg]

theorem column0_error (ident : F → V) (cv : Conv F V) (i : Nat) :
    ∀ (rows : List (List F)), (∃ r ∈ rows, r.length ≤ i) → column0 ident cv i rows = .error .index := by
  intro rows
  induction rows with
  | nil => rintro ⟨r, hr, _⟩; simp at hr
  | cons r rs ih =>
    rintro ⟨r', hr', hl⟩
    simp only [column0]
    cases hx : r[i]? with
    | none => rfl
    | some x =>
      have hi : i < r.length := (List.getElem?_eq_some_iff.1 hx).1
      rcases List.mem_cons.1 hr' with rfl | hr'
      · omega
      · simp only [ih ⟨r', hr', hl⟩]

/-- The columns of version 0 one after another. -/
theorem loop0_ok (ident : F → V) (cv : String → Conv F V) (conv : String → F → V) (rows : List (List F)) :
    ∀ (names : List String) (i : Nat) (out : Table V), (∀ c ∈ names, ∀ x, call0 ident (cv c) x = conv c x) →
      (∀ r ∈ rows, i + names.length ≤ r.length) → (Dict.keys out ++ names).Nodup →
      ∃ cols : List (List V), cols.length = names.length ∧ loop0 ident cv rows names i out = .ok (out ++ names.zip cols) ∧
        ∀ (j : Nat) (c : String), names[j]? = some c → ∃ l, cols[j]? = some l ∧ l.map some = rows.map fun r => r[i + j]?.map (conv c) := by
  intro names
  induction names with
  | nil => intro i out _ _ _; exact ⟨[], rfl, by simp [loop0], by simp⟩
  | cons c cs ih =>
    intro i out hc hr hn
    obtain ⟨l, h1, h2⟩ := column0_ok ident (cv c) (conv c) i (hc c List.mem_cons_self) rows (fun r hr' => by
      have := hr r hr'; simp only [List.length_cons] at this; omega)
    have hnm : c ∉ Dict.keys out := by
      intro hm
      rw [List.nodup_append] at hn
      exact hn.2.2 c hm c List.mem_cons_self rfl
    obtain ⟨cols, g1, g2, g3⟩ := ih (i + 1) (Dict.set out c l) (fun c' h' => hc c' (List.mem_cons_of_mem _ h'))
      (fun r hr' => by have := hr r hr'; simp only [List.length_cons] at this; omega)
      (by
        rw [Dict.set_of_notMem hnm]
        simpa [Dict.keys] using hn)
    refine ⟨l :: cols, by simp [g1], ?_, ?_⟩
    · simp only [loop0, h1]
      rw [g2, Dict.set_of_notMem hnm]
      simp
    · intro j c' hj
      cases j with
      | zero =>
        simp only [List.getElem?_cons_zero, Option.some.injEq] at hj
        subst hj
        exact ⟨l, rfl, by simpa using h2⟩
      | succ j =>
        simp only [List.getElem?_cons_succ] at hj ⊢
        obtain ⟨l', a, b⟩ := g3 j c' hj
        refine ⟨l', a, ?_⟩
        rw [b]
        simp only [show i + 1 + j = i + (j + 1) by omega]

theorem mkDataset_ok (t : Table V) (n : Nat) (h : ∀ e ∈ t, e.2.length = n) : mkDataset t = .ok t := by
  match t with
  | [] => rfl
  | e :: es =>
    simp only [mkDataset]
    rw [if_pos]
    rw [List.all_eq_true]
    intro x hx
    simp [h e List.mem_cons_self, h x (List.mem_cons_of_mem _ hx)]

/-- A table from its columns. -/
theorem hasRows_zip (conv : String → F → V) (names : List String) (hn : names.Nodup) (rows : List (List F)) (cols : List (List V))
    (hl : cols.length = names.length) (hr : ∀ r ∈ rows, names.length ≤ r.length)
    (hc : ∀ (j : Nat) (c : String), names[j]? = some c → ∃ l, cols[j]? = some l ∧ l.map some = rows.map fun r => r[j]?.map (conv c)) :
    HasRows names (rows.map (valueRow conv names)) (names.zip cols) := by
  have hlen : ∀ (j : Nat) (l : List V), cols[j]? = some l → l.length = rows.length := by
    intro j l hj
    have hjl : j < cols.length := (List.getElem?_eq_some_iff.1 hj).1
    obtain ⟨l', a, b⟩ := hc j names[j] (List.getElem?_eq_getElem (by omega))
    rw [hj] at a
    cases a
    simpa using congrArg List.length b
  refine ⟨by rw [List.map_fst_zip (by omega)], ⟨by rw [List.map_fst_zip (by omega)]; exact hn, ?_⟩, ?_⟩
  · intro e he
    obtain ⟨k, hk⟩ := List.mem_iff_getElem?.1 he
    rw [List.getElem?_zip_eq_some] at hk
    simpa using hlen k _ hk.2
  · intro i j c hi hj
    obtain ⟨l, a, b⟩ := hc j c hj
    have hi' : i < rows.length := by simpa using hi
    rw [Verif.Make.cell_zip hn hl hj, a]
    have := congrArg (fun (l : List (Option V)) => l[i]?) b
    simp only [List.getElem?_map, List.getElem?_eq_getElem hi', Option.map_some, Option.bind_some] at this ⊢
    rw [valueRow_get conv names _ j c hj, ← Option.some.injEq, ← this]
    cases hli : l[i]? with
    | none => rw [hli] at this; simp at this
    | some x => rfl

theorem load0_rows (ident : F → V) (cv : String → Conv F V) (conv : String → F → V) (names : List String) (hn : names.Nodup)
    (hcalls : Calls ident cv conv names) (rows : List (List F)) (hr : ∀ r ∈ rows, names.length ≤ r.length) :
    ∃ t, load0 ident cv names rows = .ok t ∧ HasRows names (rows.map (valueRow conv names)) t := by
  obtain ⟨cols, h1, h2, h3⟩ := loop0_ok ident cv conv rows names 0 [] (fun c hc x => by
    rcases hcalls c hc with ⟨h, h'⟩ | h <;> simp [h, call0, *]) (fun r h => by simpa using hr r h) (by simpa [Dict.keys] using hn)
  have hh := hasRows_zip conv names hn rows cols h1 hr (fun j c hj => by simpa using h3 j c hj)
  refine ⟨names.zip cols, ?_, hh⟩
  simp only [load0, h2, List.nil_append]
  exact mkDataset_ok _ _ hh.rect.2

/-! ## Version 1 -/

theorem addRow_ok (ident : F → V) (cv : String → Conv F V) (conv : String → F → V) :
    ∀ (names : List String) (r : List F) (cols : List (List V)), Calls ident cv conv names → cols.length = names.length →
      ∃ out, addRow ident (names.map cv) r cols = .ok out ∧ out.length = names.length ∧
        ∀ (j : Nat) (l : List V), cols[j]? = some l → out[j]? = some (l ++ ((valueRow conv names r)[j]?).toList) := by
  intro names
  induction names with
  | nil =>
    intro r cols _ hl
    have : cols = [] := List.length_eq_zero_iff.1 hl
    subst this
    exact ⟨[], by simp [addRow], rfl, by simp⟩
  | cons c cs ih =>
    intro r cols hcalls hl
    match r, cols with
    | _, [] => simp at hl
    | [], l :: ls => exact ⟨l :: ls, by simp [addRow], hl, by intro j l' h; simpa [valueRow] using h⟩
    | x :: xs, l :: ls =>
      obtain ⟨out, h1, h2, h3⟩ := ih xs ls (fun c' h' => hcalls c' (List.mem_cons_of_mem _ h')) (by simpa using hl)
      have hcall : call ident (cv c) x = .ok (conv c x) := by
        rcases hcalls c List.mem_cons_self with ⟨h, h'⟩ | h <;> simp [h, call, *]
      refine ⟨(l ++ [conv c x]) :: out, ?_, by simp [h2], ?_⟩
      · simp only [List.map_cons, addRow, hcall, h1]
      · intro j l' hj
        cases j with
        | zero =>
          simp only [List.getElem?_cons_zero, Option.some.injEq] at hj
          subst hj
          simp [valueRow]
        | succ j =>
          simp only [List.getElem?_cons_succ] at hj ⊢
          simpa [valueRow] using h3 j l' hj

theorem loop1_ok (ident : F → V) (cv : String → Conv F V) (conv : String → F → V) (names : List String) (hcalls : Calls ident cv conv names) :
    ∀ (rows : List (List F)) (cols : List (List V)), cols.length = names.length →
      ∃ out, loop1 ident (names.map cv) rows cols = .ok out ∧ out.length = names.length ∧
        ∀ (j : Nat) (l : List V), cols[j]? = some l → out[j]? = some (l ++ rows.filterMap fun r => (valueRow conv names r)[j]?) := by
  intro rows
  induction rows with
  | nil => intro cols hl; exact ⟨cols, rfl, hl, by simp⟩
  | cons r rs ih =>
    intro cols hl
    obtain ⟨o1, h1, h2, h3⟩ := addRow_ok ident cv conv names r cols hcalls hl
    obtain ⟨o2, g1, g2, g3⟩ := ih o1 h2
    refine ⟨o2, by simp only [loop1, h1, g1], g2, ?_⟩
    intro j l hj
    rw [g3 j _ (h3 j l hj), List.filterMap_cons]
    cases (valueRow conv names r)[j]? <;> simp

theorem filled_filterMap (conv : String → F → V) (names : List String) (j : Nat) (rows : List (List F)) :
    rows.filterMap (fun r => (valueRow conv names r)[j]?) = (filled rows).filterMap fun r => (valueRow conv names r)[j]? := by
  induction rows with
  | nil => rfl
  | cons r rs ih =>
    cases r with
    | nil => simpa [filled, valueRow] using ih
    | cons x xs =>
      have : filled ((x :: xs) :: rs) = (x :: xs) :: filled rs := by simp [filled]
      rw [this, List.filterMap_cons, List.filterMap_cons, ih]

/-- **C276**, version 1: blank lines are skipped, the other rows have at least as many fields as there are names. -/
theorem load1_rows (ident : F → V) (cv : String → Conv F V) (conv : String → F → V) (names : List String) (hn : names.Nodup)
    (hcalls : Calls ident cv conv names) (rows : List (List F)) (hr : ∀ r ∈ rows, r = [] ∨ names.length ≤ r.length) :
    ∃ t, load1 ident cv names rows = .ok t ∧ HasRows names ((filled rows).map (valueRow conv names)) t := by
  obtain ⟨out, h1, h2, h3⟩ := loop1_ok ident cv conv names hcalls rows (names.map fun _ => []) (by simp)
  have hfill : ∀ r ∈ filled rows, names.length ≤ r.length := by
    intro r hr'
    rw [filled, List.mem_filter] at hr'
    rcases hr r hr'.1 with h | h
    · simp [h] at hr'
    · exact h
  have hh := hasRows_zip conv names hn (filled rows) out h2 hfill (by
    intro j c hj
    have hjl : j < names.length := (List.getElem?_eq_some_iff.1 hj).1
    have := h3 j [] (by rw [List.getElem?_map, hj]; rfl)
    rw [List.nil_append, filled_filterMap] at this
    refine ⟨_, this, ?_⟩
    rw [Verif.Make.filterMap_all]
    · apply List.map_congr_left
      intro r _
      exact valueRow_get conv names r j c hj
    · intro r hr'
      rw [valueRow_get conv names r j c hj]
      have := hfill r hr'
      simp [List.getElem?_eq_getElem (show j < r.length by omega)])
  refine ⟨names.zip out, ?_, hh⟩
  simp only [load1, h1]
  rw [Verif.Make.dictZip_eq names out hn h2]
  exact mkDataset_ok _ _ hh.rect.2

/-! ## Versions 2 and 3 -/

theorem convRow_ok (ident : F → V) (cv : String → Conv F V) (conv : String → F → V) :
    ∀ (names : List String) (r : List F), Calls ident cv conv names → convRow ident (names.map cv) r = .ok (valueRow conv names r) := by
  intro names
  induction names with
  | nil => intro r _; simp [convRow, valueRow]
  | cons c cs ih =>
    intro r hcalls
    cases r with
    | nil => simp [convRow, valueRow]
    | cons x xs =>
      have hcall : call ident (cv c) x = .ok (conv c x) := by
        rcases hcalls c List.mem_cons_self with ⟨h, h'⟩ | h <;> simp [h, call, *]
      simp only [List.map_cons, convRow, hcall, ih xs fun c' h' => hcalls c' (List.mem_cons_of_mem _ h')]
      rfl

theorem convRows_ok (ident : F → V) (cv : String → Conv F V) (conv : String → F → V) (names : List String)
    (hcalls : Calls ident cv conv names) :
    ∀ (rows : List (List F)), convRows ident (names.map cv) rows = .ok (rows.map (valueRow conv names)) := by
  intro rows
  induction rows with
  | nil => rfl
  | cons r rs ih => simp only [convRows, convRow_ok ident cv conv names r hcalls, ih, List.map_cons]

theorem load3_rows (ident : F → V) (cv : String → Conv F V) (conv : String → F → V) (names : List String) (hn : names.Nodup)
    (hcalls : Calls ident cv conv names) (rows : List (List F)) (hr : ∀ r ∈ rows, names.length ≤ r.length) :
    ∃ t, load3 ident cv names rows = .ok t ∧ HasRows names (rows.map (valueRow conv names)) t := by
  obtain ⟨t, h1, h2⟩ := Verif.Make.fromRows_rows (rows.map (valueRow conv names)) names hn (by
    intro r hr'
    obtain ⟨r0, h0, rfl⟩ := List.mem_map.1 hr'
    have := hr r0 h0
    rw [valueRow_length]
    omega)
  exact ⟨t, by simp only [load3, convRows_ok ident cv conv names hcalls, h1], h2⟩

/-- Rows without keys do not matter for `from_tagged_rows`. -/
theorem fromTagged_filled (rows : List (Dict String V)) : fromTagged rows = fromTagged (rows.filter fun r => !r.isEmpty) := by
  have hk : allKeys rows = allKeys (rows.filter fun r => !r.isEmpty) := by
    simp only [allKeys]
    congr 1
    induction rows with
    | nil => rfl
    | cons r rs ih =>
      cases r with
      | nil => simpa [Dict.keys] using ih
      | cons x xs => simp [ih]
  have hc : ∀ k, countKey rows k = countKey (rows.filter fun r => !r.isEmpty) k := by
    intro k
    simp only [countKey, List.filter_filter]
    congr 1
    apply List.filter_congr
    intro r _
    cases r with
    | nil => simp [Dict.has]
    | cons x xs => simp
  have hf : ∀ c, rows.filterMap (fun r => Dict.get r c) = (rows.filter fun r => !r.isEmpty).filterMap fun r => Dict.get r c := by
    intro c
    clear hk hc
    induction rows with
    | nil => rfl
    | cons r rs ih =>
      cases r with
      | nil =>
        rw [List.filterMap_cons, List.filter_cons_of_neg (by simp)]
        exact ih
      | cons x xs => simp only [List.isEmpty_cons, Bool.not_false, List.filter_cons_of_pos, List.filterMap_cons, ih]
  simp only [fromTagged, ← hk]
  simp only [hc, hf]

theorem front_ok (t : Table V) : ∀ (names : List String) (acc : Table V), (Dict.keys acc ++ names).Nodup →
    (∀ c ∈ names, (Dict.get t c).isSome) →
    ∃ cols : List (List V), cols.length = names.length ∧
      names.foldl (frontBody t) acc = acc ++ names.zip cols ∧
      ∀ (j : Nat) (c : String), names[j]? = some c → cols[j]? = Dict.get t c := by
  intro names
  induction names with
  | nil => intro acc _ _; exact ⟨[], rfl, by simp, by simp⟩
  | cons c cs ih =>
    intro acc hn hg
    obtain ⟨v, hv⟩ := Option.isSome_iff_exists.1 (hg c List.mem_cons_self)
    have hnm : c ∉ Dict.keys acc := by
      intro hm
      rw [List.nodup_append] at hn
      exact hn.2.2 c hm c List.mem_cons_self rfl
    obtain ⟨cols, h1, h2, h3⟩ := ih (Dict.set acc c v) (by rw [Dict.set_of_notMem hnm]; simpa [Dict.keys] using hn)
      (fun c' h' => hg c' (List.mem_cons_of_mem _ h'))
    refine ⟨v :: cols, by simp [h1], ?_, ?_⟩
    · rw [List.foldl_cons, show frontBody t acc c = Dict.set acc c v by simp [frontBody, hv], h2, Dict.set_of_notMem hnm]
      simp
    · intro j c' hj
      cases j with
      | zero => simp only [List.getElem?_cons_zero, Option.some.injEq] at hj ⊢; subst hj; exact hv.symm
      | succ j => simpa using h3 j c' (by simpa using hj)

theorem rest_ok : ∀ (t acc : Table V), (∀ e ∈ t, e.1 ∈ Dict.keys acc) →
    t.foldl (fun (acc : Table V) (e : String × List V) => if Dict.has acc e.1 then acc else Dict.set acc e.1 e.2) acc = acc := by
  intro t
  induction t with
  | nil => intro acc _; rfl
  | cons e t ih =>
    intro acc h
    rw [List.foldl_cons, if_pos ((Dict.has_iff _ _).2 (h e List.mem_cons_self))]
    exact ih acc fun e' he' => h e' (List.mem_cons_of_mem _ he')

/-- Moving all columns to the front puts them in the given order. -/
theorem moveFront_ok (t : Table V) (names : List String) (hn : names.Nodup) (hp : (t.map Prod.fst).Perm names) :
    ∃ cols : List (List V), cols.length = names.length ∧ moveFront t names = .ok (names.zip cols) ∧
      ∀ (j : Nat) (c : String), names[j]? = some c → cols[j]? = Dict.get t c := by
  obtain ⟨cols, h1, h2, h3⟩ := front_ok t names [] (by simpa [Dict.keys] using hn) (by
    intro c hc
    obtain ⟨e, he, rfl⟩ := List.mem_map.1 (hp.mem_iff.2 hc)
    rw [Dict.get_of_mem (hp.nodup_iff.2 hn) he]
    rfl)
  refine ⟨cols, h1, ?_, h3⟩
  have hlen : t.length = names.length := by simpa using hp.length_eq
  rw [moveFront, if_neg (by omega), front, h2, List.nil_append, rest_ok]
  intro e he
  rw [Dict.keys, List.map_fst_zip (by omega)]
  exact hp.mem_iff.1 (List.mem_map_of_mem he)

theorem dictZip_nil (names : List String) : dictZip names ([] : List V) = [] := by simp [dictZip]

theorem load2_rows (ident : F → V) (cv : String → Conv F V) (conv : String → F → V) (names : List String) (hn : names.Nodup) (h0 : names ≠ [])
    (hcalls : Calls ident cv conv names) (rows : List (List F)) (hr : ∀ r ∈ rows, r = [] ∨ names.length ≤ r.length) (hne : filled rows ≠ []) :
    ∃ t, load2 ident cv names rows = .ok t ∧ HasRows names ((filled rows).map (valueRow conv names)) t := by
  have hfill : ∀ r ∈ filled rows, names.length ≤ r.length := by
    intro r hr'
    rw [filled, List.mem_filter] at hr'
    rcases hr r hr'.1 with h | h
    · simp [h] at hr'
    · exact h
  have hzip : ∀ r ∈ filled rows, dictZip names (valueRow conv names r) = names.zip (valueRow conv names r) := by
    intro r hr'
    have := hfill r hr'
    exact Verif.Make.dictZip_eq names _ hn (by rw [valueRow_length]; omega)
  have hdicts : ((rows.map (valueRow conv names)).map fun (v : List V) => dictZip names v).filter (fun r => !r.isEmpty)
      = (filled rows).map fun r => dictZip names (valueRow conv names r) := by
    rw [List.map_map, List.filter_map, filled]
    congr 1
    apply List.filter_congr
    intro r hr'
    rcases hr r hr' with rfl | h
    · simp [valueRow, dictZip_nil]
    · have hlen : (valueRow conv names r).length = names.length := by rw [valueRow_length]; omega
      have hnl : 0 < names.length := List.length_pos_iff.2 h0
      simp only [Function.comp_apply]
      rw [Verif.Make.dictZip_eq names _ hn hlen]
      congr 1
      rw [Bool.eq_iff_iff, List.isEmpty_iff_length_eq_zero, List.isEmpty_iff_length_eq_zero, List.length_zip, hlen]
      omega
  obtain ⟨t, h1, h2, -, h4, h5⟩ := Verif.Make.fromTagged_rows ((filled rows).map fun r => dictZip names (valueRow conv names r)) names
    (by simpa using hne) hn (by
      intro d hd c
      obtain ⟨r, hr', rfl⟩ := List.mem_map.1 hd
      have := hfill r hr'
      rw [hzip r hr', Dict.keys, List.map_fst_zip (by rw [valueRow_length]; omega)])
  obtain ⟨cols, g1, g2, g3⟩ := moveFront_ok t names hn h2
  refine ⟨names.zip cols, ?_, ?_⟩
  · simp only [load2, convRows_ok ident cv conv names hcalls]
    rw [fromTagged_filled, hdicts, h1]
    exact g2
  · apply hasRows_zip conv names hn (filled rows) cols g1 hfill
    intro j c hj
    have hcn : c ∈ names := List.mem_of_getElem? hj
    obtain ⟨e, he, hec⟩ := List.mem_map.1 (h2.mem_iff.2 hcn)
    have hget : Dict.get t c = some e.2 := by rw [← hec]; exact Dict.get_of_mem h4.1 he
    refine ⟨e.2, by rw [g3 j c hj, hget], ?_⟩
    have hel := h4.2 e he
    rw [List.length_map] at hel
    apply List.ext_getElem?
    intro i
    rw [List.getElem?_map, List.getElem?_map]
    by_cases hi : i < (filled rows).length
    · have hrow : (filled rows)[i]? = some (filled rows)[i] := List.getElem?_eq_getElem hi
      have := h5 i c _ (by rw [List.getElem?_map, hrow]; rfl) hcn
      dsimp only at this
      rw [Verif.Idx.cell_eq_get, hget, hzip _ (List.getElem_mem hi)] at this
      simp only [Option.bind_some] at this
      have hle := hfill _ (List.getElem_mem hi)
      have hjl : j < names.length := (List.getElem?_eq_some_iff.1 hj).1
      rw [List.getElem?_eq_getElem (show i < e.2.length by omega)] at this ⊢
      rw [hrow, Option.map_some, Option.map_some, this]
      have hmem : (c, conv c ((filled rows)[i][j]'(by omega))) ∈ names.zip (valueRow conv names (filled rows)[i]) := by
        apply List.mem_of_getElem? (i := j)
        rw [List.getElem?_zip_eq_some]
        refine ⟨hj, ?_⟩
        rw [valueRow_get conv names _ j c hj, List.getElem?_eq_getElem (by omega)]
        rfl
      rw [Dict.get_of_mem (by rw [Dict.keys, List.map_fst_zip (by rw [valueRow_length]; omega)]; exact hn) hmem,
        List.getElem?_eq_getElem (show j < ((filled rows)[i]).length by omega)]
      rfl
    · rw [List.getElem?_eq_none (by omega), List.getElem?_eq_none (show (filled rows).length ≤ i by omega)]
      rfl

/-! ## The claims -/

/-- **C276**: if the names differ, the converters can be called and every row has at least as many fields as there are names, all four
versions give the table with these names whose rows are the converted rows of the file in order (with one row at least). -/
theorem load_partial (ident : F → V) (cv : String → Conv F V) (conv : String → F → V) (names : List String) (hn : names.Nodup) (h0 : names ≠ [])
    (hcalls : Calls ident cv conv names) (rows : List (List F)) (hne : rows ≠ []) (hr : ∀ r ∈ rows, names.length ≤ r.length)
    (load : (F → V) → (String → Conv F V) → List String → List (List F) → Except Err (Table V))
    (hload : load = load0 ∨ load = load1 ∨ load = load2 ∨ load = load3) :
    ∃ t, load ident cv names rows = .ok t ∧ HasRows names (rows.map (valueRow conv names)) t := by
  have hnl : 0 < names.length := List.length_pos_iff.2 h0
  have hf : filled rows = rows := by
    rw [filled, List.filter_eq_self]
    intro r hr'
    have := hr r hr'
    cases r with
    | nil => rw [List.length_nil] at this; omega
    | cons _ _ => rfl
  rcases hload with rfl | rfl | rfl | rfl
  · exact load0_rows ident cv conv names hn hcalls rows hr
  · have := load1_rows ident cv conv names hn hcalls rows fun r h => .inr (hr r h)
    rwa [hf] at this
  · have := load2_rows ident cv conv names hn h0 hcalls rows (fun r h => .inr (hr r h)) (by rwa [hf])
    rwa [hf] at this
  · exact load3_rows ident cv conv names hn hcalls rows hr

/-- **C276**: the table of the theorem above is determined: names, values and their order. -/
theorem load_agree_partial (names : List String) (hn : names.Nodup) (rows : List (List V)) (hr : ∀ r ∈ rows, r.length = names.length)
    (t t' : Table V) (h : HasRows names rows t) (h' : HasRows names rows t') : t = t' := by
  have hlen : t.length = names.length := by simpa using congrArg List.length h.cols
  have hlen' : t'.length = names.length := by simpa using congrArg List.length h'.cols
  apply List.ext_getElem (by omega)
  intro j hj hj'
  have e1 : (t[j]).1 = names[j]'(by omega) := by
    have := congrArg (fun l => l[j]?) h.cols
    simpa [List.getElem?_eq_getElem hj, List.getElem?_eq_getElem (show j < names.length by omega)] using this
  have e2 : (t'[j]).1 = names[j]'(by omega) := by
    have := congrArg (fun l => l[j]?) h'.cols
    simpa [List.getElem?_eq_getElem hj', List.getElem?_eq_getElem (show j < names.length by omega)] using this
  have hnj : names[j]? = some (names[j]'(by omega)) := List.getElem?_eq_getElem (by omega)
  apply Prod.ext (e1.trans e2.symm)
  have l1 := h.rect.2 _ (List.getElem_mem hj)
  have l2 := h'.rect.2 _ (List.getElem_mem hj')
  apply List.ext_getElem?
  intro i
  by_cases hi : i < rows.length
  · have a := h.value i j _ hi hnj
    have b := h'.value i j _ hi hnj
    rw [← b, Verif.Idx.cell_eq_get, Verif.Idx.cell_eq_get] at a
    have g1 : Dict.get t (names[j]'(by omega)) = some (t[j]).2 := by rw [← e1]; exact Dict.get_of_mem h.rect.1 (List.getElem_mem hj)
    have g2 : Dict.get t' (names[j]'(by omega)) = some (t'[j]).2 := by rw [← e2]; exact Dict.get_of_mem h'.rect.1 (List.getElem_mem hj')
    rw [g1, g2] at a
    simpa using a
  · rw [List.getElem?_eq_none (by omega), List.getElem?_eq_none (by omega)]

/-- A file of two columns; the second is turned into numbers, one row has a field too many. -/
def exConv : String → Conv String Int := fun c => if c = "n" then .fn (fun s => (s.length : Int)) else .absent

example : ∃ t, load2 (fun _ => 0) exConv ["s", "n"] [["a", "xx"], ["b", "xxx", "?"]] = .ok t ∧
    HasRows ["s", "n"] ([["a", "xx"], ["b", "xxx", "?"]].map (valueRow (fun c s => if c = "n" then (s.length : Int) else 0) ["s", "n"])) t :=
  load_partial _ exConv _ _ (by decide) (by decide) (by
    intro c hc
    simp only [List.mem_cons, List.not_mem_nil, or_false] at hc
    rcases hc with rfl | rfl
    · exact .inl ⟨by simp [exConv], by funext s; simp⟩
    · exact .inr (by simp [exConv])) _ (by decide) (by decide) load2 (.inr (.inr (.inl rfl)))

/-- **C277**: blank lines are skipped by versions 1 and 2, provided that there is another line. -/
theorem blank_partial (ident : F → V) (cv : String → Conv F V) (conv : String → F → V) (names : List String) (hn : names.Nodup) (h0 : names ≠ [])
    (hcalls : Calls ident cv conv names) (rows : List (List F)) (hne : filled rows ≠ [])
    (hr : ∀ r ∈ rows, r = [] ∨ names.length ≤ r.length)
    (load : (F → V) → (String → Conv F V) → List String → List (List F) → Except Err (Table V)) (hload : load = load1 ∨ load = load2) :
    ∃ t, load ident cv names rows = .ok t ∧ HasRows names ((filled rows).map (valueRow conv names)) t := by
  rcases hload with rfl | rfl
  · exact load1_rows ident cv conv names hn hcalls rows hr
  · exact load2_rows ident cv conv names hn h0 hcalls rows hr hne

theorem loop0_error (ident : F → V) (cv : String → Conv F V) (rows : List (List F)) : ∀ (names : List String) (i : Nat) (out : Table V),
    (∃ r ∈ rows, i ≤ r.length ∧ r.length < i + names.length) → loop0 ident cv rows names i out = .error .index := by
  intro names
  induction names with
  | nil => rintro i out ⟨r, _, h1, h2⟩; simp at h2; omega
  | cons c cs ih =>
    rintro i out ⟨r, hr, h1, h2⟩
    simp only [loop0]
    by_cases hx : ∃ r ∈ rows, r.length ≤ i
    · rw [column0_error ident (cv c) i rows hx]
    · obtain ⟨l, h3, -⟩ := column0_ok ident (cv c) (call0 ident (cv c)) i (fun _ => rfl) rows (fun r' hr' => by
        by_contra hc
        exact hx ⟨r', hr', by omega⟩)
      rw [h3]
      have hri : ¬ r.length ≤ i := fun h => hx ⟨r, hr, h⟩
      exact ih (i + 1) _ ⟨r, hr, by omega, by simp only [List.length_cons] at h2; omega⟩

/-- **C277**: versions 0 and 3 refuse a file with a row of fewer fields than names, a blank line too. -/
theorem short_refused (ident : F → V) (cv : String → Conv F V) (conv : String → F → V) (names : List String) (hcalls : Calls ident cv conv names)
    (rows : List (List F)) (hs : ∃ r ∈ rows, r.length < names.length) :
    load0 ident cv names rows = .error .index ∧ load3 ident cv names rows = .error (.make .value) := by
  obtain ⟨r, hr, hl⟩ := hs
  constructor
  · rw [load0, loop0_error ident cv rows names 0 [] ⟨r, hr, by omega, by omega⟩]
  · rw [load3, convRows_ok ident cv conv names hcalls]
    dsimp only
    rw [Verif.Make.fromRows_raises]
    · rintro rfl; simp at hl
    · exact ⟨valueRow conv names r, List.mem_map_of_mem hr, by rw [valueRow_length]; omega⟩

example : load0 id (fun _ => .absent) ["a", "b"] [["1", "2"], []] = .error .index ∧
    load3 id (fun _ => .absent) ["a", "b"] [["1", "2"], []] = .error (.make .value) :=
  short_refused id _ (fun _ => id) _ (fun _ _ => .inl ⟨rfl, rfl⟩) _ ⟨[], by simp, by decide⟩

/-- With a row that ends too early the first column is longer than the last one. -/
theorem count_lt (conv : String → F → V) (names : List String) (rows : List (List F)) (r : List F) (hr : r ∈ rows) (h1 : r ≠ [])
    (h2 : r.length < names.length) :
    (rows.filterMap fun r => (valueRow conv names r)[names.length - 1]?).length < (rows.filterMap fun r => (valueRow conv names r)[0]?).length := by
  have hle : ∀ (l : List (List F)), (l.filterMap fun r => (valueRow conv names r)[names.length - 1]?).length ≤
      (l.filterMap fun r => (valueRow conv names r)[0]?).length := by
    intro l
    induction l with
    | nil => simp
    | cons x xs ih =>
      rw [List.filterMap_cons, List.filterMap_cons]
      cases hx : (valueRow conv names x)[names.length - 1]? with
      | none => cases (valueRow conv names x)[0]? <;> simp <;> omega
      | some y =>
        have : names.length - 1 < (valueRow conv names x).length := (List.getElem?_eq_some_iff.1 hx).1
        rw [List.getElem?_eq_getElem (show 0 < (valueRow conv names x).length by omega)]
        simpa using ih
  induction rows with
  | nil => simp at hr
  | cons x xs ih =>
    rw [List.filterMap_cons, List.filterMap_cons]
    rcases List.mem_cons.1 hr with rfl | hr
    · have hrl : 0 < r.length := List.length_pos_iff.2 h1
      have hl := valueRow_length conv names r
      rw [List.getElem?_eq_none (by omega), List.getElem?_eq_getElem (show 0 < (valueRow conv names r).length by omega)]
      have := hle xs
      simp only [List.length_cons]
      omega
    · have := ih hr
      cases hx : (valueRow conv names x)[names.length - 1]? with
      | none => cases (valueRow conv names x)[0]? <;> simp <;> omega
      | some y =>
        have : names.length - 1 < (valueRow conv names x).length := (List.getElem?_eq_some_iff.1 hx).1
        rw [List.getElem?_eq_getElem (show 0 < (valueRow conv names x).length by omega)]
        simpa using ih hr

theorem mkDataset_error (t : Table V) (e e' : String × List V) (h : e ∈ t) (h' : e' ∈ t) (hl : e.2.length ≠ e'.2.length) :
    mkDataset t = .error (.make .value) := by
  match t with
  | [] => simp at h
  | x :: xs =>
    simp only [mkDataset]
    rw [if_neg]
    rw [List.all_eq_true]
    intro hall
    have key : ∀ y ∈ x :: xs, y.2.length = x.2.length := by
      intro y hy
      rcases List.mem_cons.1 hy with rfl | hy
      · rfl
      · simpa using hall y hy
    exact hl ((key e h).trans (key e' h').symm)

theorem map_fst_zip_take {A B : Type} : ∀ (a : List A) (b : List B), (a.zip b).map Prod.fst = a.take b.length := by
  intro a
  induction a with
  | nil => simp
  | cons x xs ih =>
    intro b
    cases b with
    | nil => simp
    | cons y ys => simp [ih]

theorem dictZip_take (conv : String → F → V) (names : List String) (hn : names.Nodup) (r : List F) :
    dictZip names (valueRow conv names r) = names.zip (valueRow conv names r) := by
  rw [dictZip, Verif.Make.fold_set]
  · simp
  · rw [List.nil_append, map_fst_zip_take]
    exact hn.sublist (List.take_sublist _ _)

theorem countKey_zip (conv : String → F → V) (names : List String) (hn : names.Nodup) (j : Nat) (c : String) (hj : names[j]? = some c)
    (rows : List (List F)) :
    countKey ((rows.map (valueRow conv names)).map fun (v : List V) => dictZip names v) c =
      (rows.filterMap fun r => (valueRow conv names r)[j]?).length := by
  induction rows with
  | nil => rfl
  | cons r rs ih =>
    have hjl : j < names.length := (List.getElem?_eq_some_iff.1 hj).1
    have hz := dictZip_take conv names hn r
    have hh : Dict.has (dictZip names (valueRow conv names r)) c = ((valueRow conv names r)[j]?).isSome := by
      rw [Bool.eq_iff_iff, Dict.has_iff, hz, Dict.keys, map_fst_zip_take]
      constructor
      · intro hm
        obtain ⟨k, hk⟩ := List.mem_iff_getElem?.1 hm
        rw [List.getElem?_take] at hk
        split at hk
        · rename_i hkl
          have : k = j := by
            have hkn := (List.getElem?_eq_some_iff.1 hk).1
            exact (List.Nodup.getElem_inj_iff hn).1 (by
              rw [← Option.some.injEq, ← List.getElem?_eq_getElem hkn, ← List.getElem?_eq_getElem hjl, hk, hj])
          subst this
          simp [List.getElem?_eq_getElem hkl]
        · simp at hk
      · intro hs
        have hjv : j < (valueRow conv names r).length := by
          by_contra hc
          rw [List.getElem?_eq_none (by omega)] at hs
          simp at hs
        apply List.mem_of_getElem? (i := j)
        rw [List.getElem?_take_of_lt hjv]
        exact hj
    rw [List.filterMap_cons]
    simp only [List.map_cons, countKey] at ih ⊢
    rw [List.filter_cons, hh]
    cases (valueRow conv names r)[j]? with
    | none => simpa using ih
    | some x => simpa using ih

/-- **C277**: versions 1 and 2 refuse a file with a row that has some fields, but fewer than there are names. -/
theorem cut_refused (ident : F → V) (cv : String → Conv F V) (conv : String → F → V) (names : List String) (hn : names.Nodup)
    (hcalls : Calls ident cv conv names) (rows : List (List F)) (hs : ∃ r ∈ rows, r ≠ [] ∧ r.length < names.length) :
    load1 ident cv names rows = .error (.make .value) ∧ ∃ e, load2 ident cv names rows = .error (.make e) := by
  obtain ⟨r, hr, h0, hl⟩ := hs
  have hlt := count_lt conv names rows r hr h0 hl
  have hf : names[0]? = some (names[0]'(by omega)) := List.getElem?_eq_getElem (by omega)
  have hg : names[names.length - 1]? = some (names[names.length - 1]'(by omega)) := List.getElem?_eq_getElem (by omega)
  constructor
  · obtain ⟨out, h1, h2, h3⟩ := loop1_ok ident cv conv names hcalls rows (names.map fun _ => []) (by simp)
    have a := h3 0 [] (by rw [List.getElem?_map, hf]; rfl)
    have b := h3 (names.length - 1) [] (by rw [List.getElem?_map, hg]; rfl)
    rw [List.nil_append] at a b
    rw [load1, h1]
    dsimp only
    rw [Verif.Make.dictZip_eq names out hn h2]
    apply mkDataset_error _ (_, _) (_, _) (List.mem_of_getElem? (i := 0) (List.getElem?_zip_eq_some.2 ⟨hf, a⟩))
      (List.mem_of_getElem? (i := names.length - 1) (List.getElem?_zip_eq_some.2 ⟨hg, b⟩))
    dsimp only
    omega
  · rw [load2, convRows_ok ident cv conv names hcalls]
    dsimp only
    have c0 := countKey_zip conv names hn 0 _ hf rows
    have c1 := countKey_zip conv names hn (names.length - 1) _ hg rows
    have pos : ∀ (c : String), 0 < countKey ((rows.map (valueRow conv names)).map fun (v : List V) => dictZip names v) c →
        c ∈ allKeys ((rows.map (valueRow conv names)).map fun (v : List V) => dictZip names v) := by
      intro c hc
      rw [countKey] at hc
      obtain ⟨d, hd⟩ := List.exists_mem_of_length_pos hc
      rw [List.mem_filter] at hd
      exact (Verif.Make.mem_allKeys _ _).2 ⟨d, hd.1, (Dict.has_iff _ _).1 hd.2⟩
    have m0 := pos _ (by rw [c0]; omega)
    by_cases m1 : names[names.length - 1]'(by omega) ∈ allKeys ((rows.map (valueRow conv names)).map fun (v : List V) => dictZip names v)
    · rw [Verif.Make.fromTagged_raises _ _ _ m0 m1 (by rw [c0, c1]; omega)]
      exact ⟨_, rfl⟩
    · cases ht : fromTagged ((rows.map (valueRow conv names)).map fun (v : List V) => dictZip names v) with
      | error e => exact ⟨e, rfl⟩
      | ok t =>
        dsimp only
        have hlen : t.length = (allKeys ((rows.map (valueRow conv names)).map fun (v : List V) => dictZip names v)).length := by
          rw [fromTagged] at ht
          cases hk : allKeys ((rows.map (valueRow conv names)).map fun (v : List V) => dictZip names v) with
          | nil => rw [hk] at m0; simp at m0
          | cons k ks =>
            simp only [hk] at ht
            split at ht
            · simp at ht
            · have := Except.ok.inj ht
              rw [← this, List.length_map, List.length_insertionSort]
        have hsub : allKeys ((rows.map (valueRow conv names)).map fun (v : List V) => dictZip names v) ⊆
            names.erase (names[names.length - 1]'(by omega)) := by
          intro c hc
          have hne : c ≠ names[names.length - 1]'(by omega) := fun h => m1 (h ▸ hc)
          rw [List.mem_erase_of_ne hne]
          obtain ⟨d, hd, hcd⟩ := (Verif.Make.mem_allKeys _ _).1 hc
          obtain ⟨v, hv, rfl⟩ := List.mem_map.1 hd
          obtain ⟨r', hr', rfl⟩ := List.mem_map.1 hv
          rw [dictZip_take conv names hn, Dict.keys, map_fst_zip_take] at hcd
          exact List.mem_of_mem_take hcd
        have hnd : (allKeys ((rows.map (valueRow conv names)).map fun (v : List V) => dictZip names v)).Nodup :=
          Verif.Merge2.nodup_eraseDups_beq _
        have hle := (List.subperm_of_subset hnd hsub).length_le
        rw [List.length_erase_of_mem (List.getElem_mem _)] at hle
        rw [moveFront, if_pos (by omega)]
        exact ⟨_, rfl⟩

example : (∃ e, load2 id (fun _ => .absent) ["a", "b"] [["1"]] = .error (.make e)) :=
  (cut_refused id _ (fun _ => id) _ (by decide) (fun _ _ => .inl ⟨rfl, rfl⟩) _ ⟨["1"], by simp, by decide, by decide⟩).2

deriving instance DecidableEq for Except

/-- Disagreement (C277): with a blank line at the end of the file versions 1 and 2 read the file, versions 0 and 3 refuse it. -/
theorem blank_counterexample :
    load0 id (fun _ => .absent) ["a"] [["1"], []] = .error .index ∧ load1 id (fun _ => .absent) ["a"] [["1"], []] = .ok [("a", ["1"])] ∧
      load2 id (fun _ => .absent) ["a"] [["1"], []] = .ok [("a", ["1"])] ∧
      load3 id (fun _ => .absent) ["a"] [["1"], []] = .error (.make .value) := by decide +kernel

/-- Disagreement (C276): a file with a header and no rows is refused by version 2 and read by the others. -/
theorem norows_counterexample (ident : F → V) (cv : String → Conv F V) (names : List String) (h0 : names ≠ []) :
    load2 (V := V) (F := F) ident cv names [] = .error (.make .value) := by
  have : 0 < names.length := List.length_pos_iff.2 h0
  simp only [load2, convRows, List.map_nil]
  simp only [fromTagged, allKeys, List.flatMap_nil, List.eraseDups_nil, moveFront, List.length_nil, gt_iff_lt, this, if_true]

/-- **C276**, files without rows: versions 0, 1 and 3 give the table with the names and no rows. -/
theorem norows_exact (ident : F → V) (cv : String → Conv F V) (conv : String → F → V) (names : List String) (hn : names.Nodup)
    (hcalls : Calls ident cv conv names)
    (load : (F → V) → (String → Conv F V) → List String → List (List F) → Except Err (Table V))
    (hload : load = load0 ∨ load = load1 ∨ load = load3) : ∃ t, load ident cv names [] = .ok t ∧ HasRows names ([] : List (List V)) t := by
  rcases hload with rfl | rfl | rfl
  · exact load0_rows ident cv conv names hn hcalls [] (by simp)
  · exact load1_rows ident cv conv names hn hcalls [] (by simp)
  · exact load3_rows ident cv conv names hn hcalls [] (by simp)

/-- Disagreement (C278): with two columns of one name the values of a column are lost without a word in versions 0, 1 and 3. -/
theorem names_counterexample :
    load0 id (fun _ => .absent) ["a", "a"] [["1", "2"]] = .ok [("a", ["2"])] ∧ load1 id (fun _ => .absent) ["a", "a"] [["1", "2"]] = .ok [("a", ["2"])] ∧
      load2 id (fun _ => .absent) ["a", "a"] [["1", "2"]] = .error (.make .value) ∧
      load3 id (fun _ => .absent) ["a", "a"] [["1", "2"]] = .ok [("a", ["2"])] := by decide +kernel

/-- Disagreement (C278): a converter `None` means "leave as text" in version 0; the others raise TypeError. -/
theorem converter_counterexample :
    load0 id (fun _ => .noCall) ["a"] [["1"]] = .ok [("a", ["1"])] ∧ load1 id (fun _ => .noCall) ["a"] [["1"]] = .error .type ∧
      load2 id (fun _ => .noCall) ["a"] [["1"]] = .error .type ∧ load3 id (fun _ => .noCall) ["a"] [["1"]] = .error .type := by decide +kernel

end Verif.Csv
