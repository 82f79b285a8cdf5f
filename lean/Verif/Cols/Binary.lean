import Verif.Cols.Foot
import Mathlib.Data.List.Perm.Subperm

/-!
# Properties: arithmetic of a Dataset with another Dataset or Struct (C86, C88)
-/
namespace Verif.Cols
open Verif.Items (Dict)
open Spec

variable {V : Type}

/-- the name of the column of the other operand which a column goes with -/
def partner (conform : Bool) (summ summ' : List String) (n : String) : String :=
  if conform = true ∧ n ∈ summ then summ'.getD (summ.idxOf n) "" else n

/-- the name of the column of the result -/
def target (conform : Bool) (summ : List String) (n : String) : String :=
  if conform = true then newName summ n else n

theorem iterCols_ok (f : List V → Arg V → Except Err (Out V)) (g : List V → Arg V → Col V) (conform : Bool) (d : Ds V) (o : Other V)
    (hn : d.summaries.Nodup) : ∀ (cs : Dict String (Col V)) (k : Nat) (od : Dict String (Col V)),
    (conform = true → cs.keys.filter (fun n => decide (n ∈ d.summaries)) = d.summaries.drop k) →
    (od.keys ++ cs.keys.map (target conform d.summaries)).Nodup →
    (∀ e ∈ cs, e.1 ∉ d.labels → ∀ a, o.cols.get (partner conform d.summaries o.summaries e.1) = some a → a.fits e.2.vals.length = true ∧
      (e.2.comp = true → f e.2.vals a = .ok (some (g e.2.vals a)))) →
    iterCols f (.all .no) conform d o k od cs = .ok (od ++ cs.map fun e =>
      (target conform d.summaries e.1, paired g d.labels e.1 e.2 (o.cols.get (partner conform d.summaries o.summaries e.1)))) := by
  intro cs
  induction cs with
  | nil => intro k od _ _ _; simp [iterCols]
  | cons e es ih =>
    intro k od h1 h2 h3
    obtain ⟨n, c⟩ := e
    have hto : (if (conform && decide (n ∈ d.summaries)) = true then summaryName k else n) = target conform d.summaries n ∧
        (if (conform && decide (n ∈ d.summaries)) = true then o.summaries.getD k "" else n) = partner conform d.summaries o.summaries n ∧
        (conform = true → (Dict.keys es).filter (fun n => decide (n ∈ d.summaries)) = d.summaries.drop (if (conform && decide (n ∈ d.summaries)) = true then k + 1 else k)) := by
      cases hcf : conform with
      | false => simp [target, partner]
      | true =>
        have h1' := h1 hcf
        by_cases hm : n ∈ d.summaries
        · have hf' : n :: (Dict.keys es).filter (fun n => decide (n ∈ d.summaries)) = d.summaries.drop k := by
            rw [← h1']; simp [Dict.keys, hm]
          have hi : k < d.summaries.length := by
            by_contra hc
            rw [List.drop_eq_nil_of_le (by omega)] at hf'
            simp at hf'
          have g1 : d.summaries[k]? = some n := by
            have := congrArg (fun l => l[0]?) hf'
            simpa using this.symm
          have g2 : (Dict.keys es).filter (fun n => decide (n ∈ d.summaries)) = d.summaries.drop (k + 1) := by
            have := congrArg List.tail hf'
            simpa using this
          have g3 : d.summaries.idxOf n = k := by
            have hg : d.summaries[k] = n := by
              rw [List.getElem?_eq_getElem hi] at g1; exact Option.some.inj g1
            rw [← hg]; exact List.Nodup.idxOf_getElem hn k hi
          refine ⟨?_, ?_, ?_⟩
          · simp [hm, target, newName, g3, summaryName]
          · simp [hm, partner, g3]
          · intro _; simp [hm, g2]
        · have hf' : (Dict.keys es).filter (fun n => decide (n ∈ d.summaries)) = d.summaries.drop k := by
            rw [← h1']; simp [Dict.keys, hm]
          simp [hm, target, newName, partner, hf']
    obtain ⟨t1, t2, t3⟩ := hto
    have hres : oneCol f (.all .no) d.labels n c (o.cols.get (partner conform d.summaries o.summaries n))
        = .ok (paired g d.labels n c (o.cols.get (partner conform d.summaries o.summaries n))) := by
      cases hg : o.cols.get (partner conform d.summaries o.summaries n) with
      | none => simp [oneCol, paired]
      | some a =>
        by_cases hl : n ∈ d.labels
        · simp [oneCol, hl, paired]
        · obtain ⟨ha, hb⟩ := h3 (n, c) (by simp) hl a hg
          simp only at ha hb
          simp only [oneCol, hl, if_false, single, ha, if_true]
          cases hc : c.comp with
          | true => simp [operate, hc, hb hc, paired, hl]
          | false => simp [operate, hc, paired, FillArg.at]
    have hk2 : Dict.keys ((n, c) :: es) = n :: Dict.keys es := rfl
    rw [hk2, List.map_cons] at h2
    have hnot : target conform d.summaries n ∉ od.keys := by
      intro hm
      exact (List.disjoint_of_nodup_append h2) hm (by simp)
    simp only [iterCols, bind, Except.bind, t1, t2, hres]
    rw [Dict.set_of_notMem hnot]
    rw [ih _ _ t3]
    · simp
    · simpa [Dict.keys, List.append_assoc] using h2
    · intro e he; exact h3 e (List.mem_cons_of_mem _ he)

theorem nrows_eq (d : Ds V) (hw : Wf d) {e : String × Col V} (he : e ∈ d.cols) : nrows d = e.2.vals.length := by
  unfold nrows
  cases hd : d.cols with
  | nil => rw [hd] at he; simp at he
  | cons a as =>
    simp only
    exact hw.even a (by rw [hd]; simp) e he

/-- the columns in common fit -/
theorem fits_iff (d : Ds V) (o : Other V) (hn : o.cols.keys.Nodup) :
    (o.cols.all fun e => !d.cols.has e.1 || e.2.fits (nrows d)) = true ↔
      ∀ (n : String) (a : Arg V), o.cols.get n = some a → n ∈ d.cols.keys → a.fits (nrows d) = true := by
  rw [List.all_eq_true]
  constructor
  · intro h n a ha hm
    have := h (n, a) (Dict.mem_of_get ha)
    have hh : d.cols.has n = true := (Dict.has_iff d.cols n).2 hm
    simpa [hh] using this
  · intro h e he
    by_cases hm : e.1 ∈ d.cols.keys
    · simp [h e.1 e.2 (Dict.get_of_mem hn he) hm]
    · have : d.cols.has e.1 = false := (Dict.has_false_iff d.cols e.1).2 hm
      simp [this]

/-- **C86.** `ds op other` for a Dataset without summary columns and any other Dataset or Struct,
in whatever order its columns are: a column of the result is the operator of the columns of the
same name (labels and columns one cannot compute with stay), columns the other does not have stay
as they are, and columns only the other has are not in the result; it raises exactly when a
column they have in common does not fit. -/
theorem other_exact (f : List V → Arg V → Except Err (Out V)) (nan : V) (g : List V → Arg V → Col V) (d : Ds V) (o : Other V)
    (hw : Wf d) (hne : d.cols ≠ []) (hs : d.summaries = []) (hf0 : d.footers = []) (hn : o.cols.keys.Nodup)
    (hg : ∀ e ∈ d.cols, e.1 ∉ d.labels → e.2.comp = true → ∀ a, o.cols.get e.1 = some a → a.fits e.2.vals.length = true →
      f e.2.vals a = .ok (some (g e.2.vals a)) ∧ (g e.2.vals a).vals.length = e.2.vals.length) :
    ((∃ n a, o.cols.get n = some a ∧ n ∈ d.cols.keys ∧ a.fits (nrows d) = false) → applyOther f nan (.all .no) d o = .error .value) ∧
    ((∀ n a, o.cols.get n = some a → n ∈ d.cols.keys → a.fits (nrows d) = true) →
      applyOther f nan (.all .no) d o = .ok (some
        { cols := d.cols.map fun e => (e.1, paired g d.labels e.1 e.2 (o.cols.get e.1))
          labels := d.labels, summaries := [], footers := [] })) := by
  constructor
  · rintro ⟨n, a, ha, hm, hfit⟩
    have : (o.cols.all fun e => !d.cols.has e.1 || e.2.fits (nrows d)) = false := by
      rw [Bool.eq_false_iff]
      intro h
      have := (fits_iff d o hn).1 h n a ha hm
      rw [hfit] at this; cases this
    simp [applyOther, this]
  · intro hall
    have hfit := (fits_iff d o hn).2 hall
    have hp : ∀ n, partner (conforms d o) d.summaries o.summaries n = n := by intro n; simp [partner, hs]
    have ht : ∀ n, target (conforms d o) d.summaries n = n := by intro n; simp [target, newName, hs]
    have htf : target (conforms d o) d.summaries = id := by funext n; exact ht n
    have hget : ∀ e ∈ d.cols, e.1 ∉ d.labels → ∀ a, o.cols.get e.1 = some a → a.fits e.2.vals.length = true := by
      intro e he hl a ha
      rw [← nrows_eq d hw he]
      exact hall e.1 a ha (List.mem_map.2 ⟨e, he, rfl⟩)
    have hit := iterCols_ok f g (conforms d o) d o hw.summNodup d.cols 0 [] (by intro _; simp [hs]) (by
        rw [htf]; simpa [Dict.keys] using hw.nodup)
      (by
        intro e he hl a ha
        rw [hp] at ha
        have h1 := hget e he hl a ha
        exact ⟨h1, fun hc => (hg e he hl hc a ha h1).1⟩)
    simp only [hp, ht, List.nil_append] at hit
    have hev : even (d.cols.map fun e => (e.1, paired g d.labels e.1 e.2 (o.cols.get e.1))) = true := by
      rw [even_iff]
      have hl : ∀ e ∈ d.cols, (paired g d.labels e.1 e.2 (o.cols.get e.1)).vals.length = e.2.vals.length := by
        intro e he
        unfold paired
        split
        · rename_i hc
          cases ha : o.cols.get e.1 with
          | none => rfl
          | some a => simpa using (hg e he hc.2 hc.1 a ha (hget e he hc.2 a ha)).2
        · rfl
      intro a ha b hb
      obtain ⟨a', ha', rfl⟩ := List.mem_map.1 ha
      obtain ⟨b', hb', rfl⟩ := List.mem_map.1 hb
      simp only [hl a' ha', hl b' hb', hw.even a' ha' b' hb']
    have hk : Dict.keys (d.cols.map fun e => (e.1, paired g d.labels e.1 e.2 (o.cols.get e.1))) = d.cols.keys := by
      simp [Dict.keys, Function.comp_def]
    have hne' : ((d.cols.map fun e => (e.1, paired g d.labels e.1 e.2 (o.cols.get e.1))) = []) = False := by
      simp [hne]
    have hlab : d.labels.filter (fun n => Dict.has (d.cols.map fun e => (e.1, paired g d.labels e.1 e.2 (o.cols.get e.1))) n) = d.labels := by
      rw [List.filter_eq_self]
      intro n hn
      rw [Dict.has_iff, hk]
      exact hw.labels n hn
    simp only [applyOther, hfit, operateIter, hit, bind, Except.bind, hne', hev, hf0, hlab, pure, Except.pure, hs]
    simp


/-! ## Summaries and footers -/

theorem drop_of_idx (keys names : List String) (p : Nat) (hm : ∀ n ∈ names, n ∈ keys) (hp : p + names.length = keys.length)
    (h : names.map (fun n => keys.idxOf n) = List.range' p names.length) : names = keys.drop p := by
  apply List.ext_getElem (by simp; omega)
  intro k h1 h2
  have h3 : (names.map (fun n => keys.idxOf n))[k]'(by simpa using h1) = p + k := by
    simp only [h, List.getElem_range', Nat.one_mul]
  rw [List.getElem_map] at h3
  rw [List.getElem_drop]
  have h4 : keys.idxOf names[k] < keys.length := List.idxOf_lt_length_of_mem (hm _ (List.getElem_mem h1))
  have h5 : keys[keys.idxOf names[k]] = names[k] := List.getElem_idxOf h4
  rw [← h5]
  congr 1

theorem take_of_idx (keys names : List String) (hm : ∀ n ∈ names, n ∈ keys)
    (h : names.map (fun n => keys.idxOf n) = List.range names.length) : keys = names ++ keys.drop names.length := by
  conv_lhs => rw [← List.take_append_drop names.length keys]
  congr 1
  have hk : ∀ k (h1 : k < names.length), ∃ h2 : k < keys.length, keys[k] = names[k] := by
    intro k h1
    have h3 : (names.map (fun n => keys.idxOf n))[k]'(by simpa using h1) = k := by
      simp only [h, List.getElem_range]
    rw [List.getElem_map] at h3
    have h4 : keys.idxOf names[k] < keys.length := List.idxOf_lt_length_of_mem (hm _ (List.getElem_mem h1))
    have h5 : keys[keys.idxOf names[k]] = names[k] := List.getElem_idxOf h4
    refine ⟨by omega, ?_⟩
    rw [← h5]; congr 1; exact h3.symm
  have hlen : names.length ≤ keys.length := by
    by_cases h0 : names.length = 0
    · omega
    · obtain ⟨h2, _⟩ := hk (names.length - 1) (by omega); omega
  apply List.ext_getElem (by simp; omega)
  intro k h1 h2
  rw [List.getElem_take]
  exact (hk k h2).2

theorem labels_first (a b : Ds V) (hw : Wf a) (h : labelsConform a b = true) : a.cols.keys = a.labels ++ a.cols.keys.drop a.labels.length := by
  unfold labelsConform at h
  rcases of_decide_eq_true h with h | h
  · simp [h.1]
  · exact take_of_idx _ _ hw.labels h.2.2.2

theorem summaries_last (a b : Ds V) (hw : Wf a) (h : summariesConform a b = true) :
    a.cols.keys.filter (fun n => decide (n ∈ a.summaries)) = a.summaries := by
  unfold summariesConform at h
  rcases of_decide_eq_true h with h | h
  · simp [h.1]
  · have hkl : a.cols.keys.length = a.cols.length := by simp [Dict.keys]
    have hle : a.summaries.length ≤ a.cols.length := by
      rw [← hkl]
      exact (List.subperm_of_subset hw.summNodup hw.summ).length_le
    have h1 := h.2.2.2
    have h2 : (List.range a.cols.length).drop (a.cols.length - a.summaries.length)
        = List.range' (a.cols.length - a.summaries.length) a.summaries.length := by
      rw [List.range_eq_range', List.drop_range']
      congr 1 <;> omega
    rw [h2] at h1
    have h3 := drop_of_idx a.cols.keys a.summaries (a.cols.length - a.summaries.length) hw.summ (by omega) h1
    have h4 := List.take_append_drop (a.cols.length - a.summaries.length) a.cols.keys
    rw [← h3] at h4
    have hnd := hw.nodup
    rw [← h4] at hnd
    conv_lhs => rw [← h4]
    rw [List.filter_append]
    have e1 : (a.cols.keys.take (a.cols.length - a.summaries.length)).filter (fun n => decide (n ∈ a.summaries)) = [] := by
      rw [List.filter_eq_nil_iff]
      intro n hn hm
      exact (List.disjoint_of_nodup_append hnd) hn (of_decide_eq_true hm)
    have e2 : a.summaries.filter (fun n => decide (n ∈ a.summaries)) = a.summaries := by
      rw [List.filter_eq_self]; intro n hn; simpa using hn
    rw [e1, e2, List.nil_append]

theorem newFooters_ok (d : Ds V) (rest : List String) (hw : Wf d) (hk : d.cols.keys = d.labels ++ rest)
    (ho : rest.filter (fun n => decide (n ∈ d.summaries)) = d.summaries)
    (hnd : (d.labels ++ rest.map (newName d.summaries)).Nodup) (rows : List (List (Option V))) (hlen : ∀ r ∈ rows, r.length = rest.length) :
    newFooters d ((List.range d.summaries.length).map summaryName) (d.labels ++ rest.map (newName d.summaries)) rows
      = rows.zipIdx.map fun e => ("Footer" ++ toString (e.2 : Nat), List.replicate d.labels.length none ++ e.1) := by
  have hd : d.cols.keys.drop d.labels.length = rest := by rw [hk]; simp
  have e3 : every (fun a => footCells d.summaries rest a ((List.range d.summaries.length).map summaryName)) (rows.map id)
      = some (rows.map fun r => List.zip (rest.map (newName d.summaries)) r) := by
    apply every_map
    intro r hr
    have := footCells_ok d.summaries hw.summNodup rest 0 r (hlen r hr) (by simpa using ho)
    rw [id, ← this]
    simp [List.range_eq_range']
  rw [List.map_id] at e3
  simp only [newFooters, hd, e3]
  rw [footRows_map _ _ (fun r => List.replicate d.labels.length none ++ r)]
  intro r hr
  exact footRow_ok _ _ _ hnd (by simp [hlen r hr])

theorem footPairs_ok (f : List V → Arg V → Except Err (Out V)) (g : List V → Arg V → Col V) (nan : V) (nl : Nat) :
    ∀ (rows rows' : List (List (Option V))), rows.length = rows'.length →
    (∀ e ∈ List.zip rows rows', e.1.length = e.2.length ∧
      f ((e.1.map fun o => o.getD nan).drop nl) (.arr ((e.2.map fun o => o.getD nan).drop nl)) =
        .ok (some (g ((e.1.map fun o => o.getD nan).drop nl) (.arr ((e.2.map fun o => o.getD nan).drop nl))))) →
    footPairs f nan nl rows rows' = .ok ((List.zip rows rows').map fun e =>
      (g ((e.1.map fun o => o.getD nan).drop nl) (.arr ((e.2.map fun o => o.getD nan).drop nl))).vals.map some) := by
  intro rows
  induction rows with
  | nil => intro rows' _ _; cases rows' <;> rfl
  | cons r rs ih =>
    intro rows' hl h
    cases rows' with
    | nil => simp at hl
    | cons r' rs' =>
      have h1 := h (r, r') (by simp)
      simp only at h1
      have h2 := ih rs' (by simpa using hl) (fun e he => h e (by simp [he]))
      simp only [footPairs, footPair, h2, h1.2, bind, Except.bind, pure, Except.pure, List.zip_cons_cons, List.map_cons]
      simp [h1.1]

theorem newName_inj' (keys ss : List String) (hc : ∀ k < ss.length, "Summary" ++ toString k ∈ keys → "Summary" ++ toString k ∈ ss)
    {x y : String} (hx : x ∈ keys) (hy : y ∈ keys) (h : newName ss x = newName ss y) : x = y := by
  have key : ∀ a b : String, a ∈ ss → b ∈ keys → b ∉ ss → summaryName (0 + ss.idxOf a) ≠ b := by
    intro a b ha hb hb' e
    rw [Nat.zero_add] at e
    have := hc (ss.idxOf a) (List.idxOf_lt_length_of_mem ha) (by
      have : "Summary" ++ toString (ss.idxOf a) = b := e
      rw [this]; exact hb)
    exact hb' (by rw [← e]; exact this)
  rw [newName_eq, newName_eq] at h
  by_cases h1 : x ∈ ss <;> by_cases h2 : y ∈ ss
  · rw [if_pos h1, if_pos h2] at h
    have := summaryName_inj h
    exact (List.idxOf_inj h1).1 (by omega)
  · rw [if_pos h1, if_neg h2] at h; exact absurd h (key x y h1 hy h2)
  · rw [if_neg h1, if_pos h2] at h; exact absurd h.symm (key y x h2 hx h1)
  · rwa [if_neg h1, if_neg h2] at h

theorem conform_value (f : List V → Arg V → Except Err (Out V)) (nan : V) (g : List V → Arg V → Col V) (a b : Ds V)
    (hw : Wf a) (hwb : Wf b) (hne : a.cols ≠ []) (hc : conforms a (.ds b) = true)
    (hfree : ∀ k < a.summaries.length, "Summary" ++ toString k ∈ a.cols.keys → "Summary" ++ toString k ∈ a.summaries)
    (hrows : ∀ e ∈ a.cols, ∀ e' ∈ b.cols, e'.2.vals.length = e.2.vals.length)
    (hg : ∀ xs ys, ys.length = xs.length → f xs (.arr ys) = .ok (some (g xs (.arr ys))) ∧ (g xs (.arr ys)).vals.length = xs.length) :
    applyOther f nan (.all .no) a (.ds b) = .ok (some
      { cols := a.cols.map fun e => (newName a.summaries e.1, paired g a.labels e.1 e.2 ((Other.ds b).cols.get (partner true a.summaries b.summaries e.1)))
        labels := a.labels
        summaries := (List.range a.summaries.length).map summaryName
        footers := (List.zip (a.footers.map Prod.snd) (b.footers.map Prod.snd)).zipIdx.map fun e =>
          ("Footer" ++ toString (e.2 : Nat), List.replicate a.labels.length none ++
            (g ((e.1.1.map fun o => o.getD nan).drop a.labels.length) (.arr ((e.1.2.map fun o => o.getD nan).drop a.labels.length))).vals.map some) }) ∧
    (a.cols.keys.map (newName a.summaries)).Nodup := by
  have hc' := hc
  simp only [conforms, Bool.and_eq_true] at hc'
  obtain ⟨⟨hfc, hlc⟩, hsc⟩ := hc'
  have hk := labels_first a b hw hlc
  have hs := summaries_last a b hw hsc
  have hbc : Other.cols (.ds b) = b.cols.map fun e => (e.1, Arg.arr e.2.vals) := rfl
  have hbk : (Other.cols (.ds b)).keys = b.cols.keys := by rw [hbc]; simp [Dict.keys, Function.comp_def]
  have hget : ∀ n, (Other.cols (.ds b)).get n = (b.cols.get n).map fun c => Arg.arr c.vals := by
    intro n; rw [hbc]; exact get_map_val (fun c : Col V => Arg.arr c.vals) b.cols n
  have hlen : ∀ e ∈ a.cols, ∀ n x, (Other.cols (.ds b)).get n = some x → ∃ ys, x = .arr ys ∧ ys.length = e.2.vals.length := by
    intro e he n x hx
    rw [hget] at hx
    cases hb : b.cols.get n with
    | none => rw [hb] at hx; simp at hx
    | some c =>
      rw [hb] at hx
      exact ⟨c.vals, (Option.some.inj hx).symm, hrows e he (n, c) (Dict.mem_of_get hb)⟩
  have hfit : ((Other.ds b).cols.all fun e => !a.cols.has e.1 || e.2.fits (nrows a)) = true := by
    rw [fits_iff a _ (by rw [hbk]; exact hwb.nodup)]
    intro n x hx hm
    obtain ⟨e, he, rfl⟩ := List.mem_map.1 hm
    obtain ⟨ys, rfl, hy⟩ := hlen e he _ x hx
    simp [Arg.fits, nrows_eq a hw he, hy]
  have htf : target true a.summaries = newName a.summaries := by funext n; simp [target]
  have hnd : (a.cols.keys.map (newName a.summaries)).Nodup :=
    List.Nodup.map_on (fun x hx y hy h => newName_inj' _ _ hfree hx hy h) hw.nodup
  have hit := iterCols_ok f g true a (.ds b) hw.summNodup a.cols 0 [] (by intro _; simpa using hs) (by
      rw [htf]; simpa [Dict.keys] using hnd)
    (by
      intro e he hl x hx
      obtain ⟨ys, rfl, hy⟩ := hlen e he _ x hx
      exact ⟨by simp [Arg.fits, hy], fun _ => (hg _ ys hy).1⟩)
  simp only [List.nil_append, htf] at hit
  have hk2 : Dict.keys (a.cols.map fun e => (newName a.summaries e.1, paired g a.labels e.1 e.2 ((Other.ds b).cols.get (partner true a.summaries (Other.ds b).summaries e.1))))
      = a.cols.keys.map (newName a.summaries) := by
    simp [Dict.keys, Function.comp_def]
  have hev : even (a.cols.map fun e => (newName a.summaries e.1, paired g a.labels e.1 e.2 ((Other.ds b).cols.get (partner true a.summaries (Other.ds b).summaries e.1)))) = true := by
    rw [even_iff]
    have hl : ∀ e ∈ a.cols, (paired g a.labels e.1 e.2 ((Other.ds b).cols.get (partner true a.summaries (Other.ds b).summaries e.1))).vals.length = e.2.vals.length := by
      intro e he
      unfold paired
      split
      · cases hx : (Other.ds b).cols.get (partner true a.summaries (Other.ds b).summaries e.1) with
        | none => rfl
        | some x =>
          obtain ⟨ys, rfl, hy⟩ := hlen e he _ x hx
          simpa using (hg _ ys hy).2
      · rfl
    intro x hx y hy
    obtain ⟨x', hx', rfl⟩ := List.mem_map.1 hx
    obtain ⟨y', hy', rfl⟩ := List.mem_map.1 hy
    simp only [hl x' hx', hl y' hy', hw.even x' hx' y' hy']
  have hne' : ((a.cols.map fun e => (newName a.summaries e.1, paired g a.labels e.1 e.2 ((Other.ds b).cols.get (partner true a.summaries (Other.ds b).summaries e.1)))) = []) = False := by
    simp [hne]
  have hlab : a.labels.filter (fun n => Dict.has (a.cols.map fun e => (newName a.summaries e.1, paired g a.labels e.1 e.2 ((Other.ds b).cols.get (partner true a.summaries (Other.ds b).summaries e.1)))) n) = a.labels := by
    rw [List.filter_eq_self]
    intro n hn
    rw [Dict.has_iff, hk2, List.mem_map]
    exact ⟨n, hw.labels n hn, by simp [newName, hw.disjoint n hn]⟩
  -- the footers
  have hfl : a.footers.length = b.footers.length ∧ ∀ e ∈ List.zip (a.footers.map Prod.snd) (b.footers.map Prod.snd), e.1.length = e.2.length := by
    unfold footersConform at hfc
    have := of_decide_eq_true hfc
    refine ⟨this.1, fun e he => ?_⟩
    have h2 := List.all_eq_true.1 this.2 e he
    exact of_decide_eq_true h2
  have hnk : a.cols.keys.map (newName a.summaries) = a.labels ++ (a.cols.keys.drop a.labels.length).map (newName a.summaries) := by
    conv_lhs => rw [hk]
    rw [List.map_append]
    congr 1
    conv_rhs => rw [← List.map_id a.labels]
    apply List.map_congr_left
    intro n hn
    simp [newName, hw.disjoint n hn]
  have hrest : (a.cols.keys.drop a.labels.length).filter (fun n => decide (n ∈ a.summaries)) = a.summaries := by
    have h1 := hs
    rw [hk, List.filter_append] at h1
    have h2 : a.labels.filter (fun n => decide (n ∈ a.summaries)) = [] := by
      rw [List.filter_eq_nil_iff]
      intro n hn
      simpa using hw.disjoint n hn
    rw [h2, List.nil_append] at h1
    exact h1
  have hpairs := footPairs_ok f g nan a.labels.length (a.footers.map Prod.snd) (b.footers.map Prod.snd) (by simp [hfl.1])
    (by
      intro e he
      exact ⟨hfl.2 e he, (hg _ _ (by simp [hfl.2 e he])).1⟩)
  have hnew := newFooters_ok a (a.cols.keys.drop a.labels.length) hw hk hrest (by rw [← hnk]; exact hnd)
    ((List.zip (a.footers.map Prod.snd) (b.footers.map Prod.snd)).map fun e =>
      (g ((e.1.map fun o => o.getD nan).drop a.labels.length) (.arr ((e.2.map fun o => o.getD nan).drop a.labels.length))).vals.map some)
    (by
      intro r hr
      obtain ⟨e, he, rfl⟩ := List.mem_map.1 hr
      have h1 := (hg ((e.1.map fun o => o.getD nan).drop a.labels.length) ((e.2.map fun o => o.getD nan).drop a.labels.length) (by simp [hfl.2 e he])).2
      rw [List.length_map, h1]
      obtain ⟨x, hx, hxe⟩ := List.mem_map.1 (List.of_mem_zip he).1
      have h2 := hw.rows x hx
      rw [hxe] at h2
      simp [h2, Dict.keys])
  refine ⟨?_, hnd⟩
  simp only [applyOther, hfit, operateIter, hc, hit, bind, Except.bind, hne', hev, hk2, hlab, pure, Except.pure]
  have hbf : (Other.ds b).footers = b.footers := rfl
  by_cases h0 : a.footers = []
  · simp [h0]
    intros
    rfl
  · simp only [hbf, hpairs, hnk, Except.map]
    simp only [if_true, if_false, ne_eq, not_false_eq_true, and_self, hnew, List.zipIdx_map]
    simp [Function.comp_def, h0]
    intros
    rfl

/-- **C86, C88, summaries and footers.** Two Datasets conform: labels first, summaries last, at the
same places, with the same number of footer rows.  Then ordinary columns go together by name, the
k-th summary goes with the k-th summary and becomes `Summaryk`, and the k-th footer row with the
k-th footer row, with NaN where a column has no footer value. -/
theorem conform_exact (f : List V → Arg V → Except Err (Out V)) (nan : V) (g : List V → Arg V → Col V) (a b : Ds V)
    (hw : Wf a) (hwb : Wf b) (hne : a.cols ≠ []) (hc : conforms a (.ds b) = true)
    (hfree : ∀ k < a.summaries.length, "Summary" ++ toString k ∈ a.cols.keys → "Summary" ++ toString k ∈ a.summaries)
    (hrows : ∀ e ∈ a.cols, ∀ e' ∈ b.cols, e'.2.vals.length = e.2.vals.length)
    (hg : ∀ xs ys, ys.length = xs.length → f xs (.arr ys) = .ok (some (g xs (.arr ys))) ∧ (g xs (.arr ys)).vals.length = xs.length) :
    ∃ r, applyOther f nan (.all .no) a (.ds b) = .ok (some r) ∧ r.labels = a.labels ∧
      r.cols.keys = a.cols.keys.map (newName a.summaries) ∧ r.cols.keys.Nodup ∧
      r.summaries = (List.range a.summaries.length).map (fun (i : Nat) => "Summary" ++ toString i) ∧
      (∀ n c, a.cols.get n = some c → n ∉ a.summaries →
        r.cols.get n = some (paired g a.labels n c ((b.cols.get n).map fun c' => .arr c'.vals))) ∧
      (∀ (k : Nat) n n' c c', a.summaries[k]? = some n → b.summaries[k]? = some n' → a.cols.get n = some c → b.cols.get n' = some c' →
        r.cols.get ("Summary" ++ toString k) = some (paired g a.labels n c (some (.arr c'.vals)))) ∧
      r.footers = (List.zip (a.footers.map Prod.snd) (b.footers.map Prod.snd)).zipIdx.map fun e =>
        ("Footer" ++ toString (e.2 : Nat), List.replicate a.labels.length none ++
          (g ((e.1.1.map fun o => o.getD nan).drop a.labels.length) (.arr ((e.1.2.map fun o => o.getD nan).drop a.labels.length))).vals.map some) := by
  obtain ⟨h1, h2⟩ := conform_value f nan g a b hw hwb hne hc hfree hrows hg
  have hk2 : Dict.keys (a.cols.map fun e => (newName a.summaries e.1, paired g a.labels e.1 e.2 ((Other.ds b).cols.get (partner true a.summaries b.summaries e.1))))
      = a.cols.keys.map (newName a.summaries) := by
    simp [Dict.keys, Function.comp_def]
  have hget : ∀ n, (Other.cols (.ds b)).get n = (b.cols.get n).map fun c => Arg.arr c.vals := by
    intro n; exact get_map_val (fun c : Col V => Arg.arr c.vals) b.cols n
  refine ⟨_, h1, rfl, hk2, by rw [hk2]; exact h2, rfl, ?_, ?_, rfl⟩
  · intro n c hn hns
    apply Dict.get_of_mem (by rw [hk2]; exact h2)
    rw [List.mem_map]
    refine ⟨(n, c), Dict.mem_of_get hn, ?_⟩
    simp [newName, hns, partner, hget]
  · intro k n n' c c' hk hk' hn hn'
    apply Dict.get_of_mem (by rw [hk2]; exact h2)
    rw [List.mem_map]
    refine ⟨(n, c), Dict.mem_of_get hn, ?_⟩
    have hmem : n ∈ a.summaries := List.mem_of_getElem? hk
    have hidx : a.summaries.idxOf n = k := by
      obtain ⟨hlt, hg⟩ := List.getElem?_eq_some_iff.1 hk
      rw [← hg]; exact List.Nodup.idxOf_getElem hw.summNodup k hlt
    simp [newName, hmem, partner, hget, hidx, hk', hn']


/-! ## Lengths that do not fit -/

theorem iterCols_err (f : List V → Arg V → Except Err (Out V)) (g : List V → Arg V → Col V) (conform : Bool) (d : Ds V) (o : Other V)
    (hn : d.summaries.Nodup) : ∀ (cs : Dict String (Col V)) (k : Nat) (od : Dict String (Col V)),
    (conform = true → cs.keys.filter (fun n => decide (n ∈ d.summaries)) = d.summaries.drop k) →
    (∀ e ∈ cs, ∀ a, a.fits e.2.vals.length = true → e.2.comp = true → f e.2.vals a = .ok (some (g e.2.vals a))) →
    (∃ e ∈ cs, e.1 ∉ d.labels ∧ ∃ a, o.cols.get (partner conform d.summaries o.summaries e.1) = some a ∧ a.fits e.2.vals.length = false) →
    iterCols f (.all .no) conform d o k od cs = .error .value := by
  intro cs
  induction cs with
  | nil => rintro k od _ _ ⟨e, he, _⟩; simp at he
  | cons e es ih =>
    intro k od h1 h3 h4
    obtain ⟨n, c⟩ := e
    have hfrom : (if (conform && decide (n ∈ d.summaries)) = true then o.summaries.getD k "" else n) = partner conform d.summaries o.summaries n ∧
        (conform = true → (Dict.keys es).filter (fun n => decide (n ∈ d.summaries)) = d.summaries.drop (if (conform && decide (n ∈ d.summaries)) = true then k + 1 else k)) := by
      cases hcf : conform with
      | false => simp [partner]
      | true =>
        have h1' := h1 hcf
        by_cases hm : n ∈ d.summaries
        · have hf' : n :: (Dict.keys es).filter (fun n => decide (n ∈ d.summaries)) = d.summaries.drop k := by
            rw [← h1']; simp [Dict.keys, hm]
          have hi : k < d.summaries.length := by
            by_contra hc
            rw [List.drop_eq_nil_of_le (by omega)] at hf'
            simp at hf'
          have g1 : d.summaries[k]? = some n := by
            have := congrArg (fun l => l[0]?) hf'
            simpa using this.symm
          have g2 : (Dict.keys es).filter (fun n => decide (n ∈ d.summaries)) = d.summaries.drop (k + 1) := by
            have := congrArg List.tail hf'
            simpa using this
          have g3 : d.summaries.idxOf n = k := by
            have hg : d.summaries[k] = n := by
              rw [List.getElem?_eq_getElem hi] at g1; exact Option.some.inj g1
            rw [← hg]; exact List.Nodup.idxOf_getElem hn k hi
          refine ⟨?_, ?_⟩
          · simp [hm, partner, g3]
          · intro _; simp [hm, g2]
        · have hf' : (Dict.keys es).filter (fun n => decide (n ∈ d.summaries)) = d.summaries.drop k := by
            rw [← h1']; simp [Dict.keys, hm]
          simp [hm, partner, hf']
    obtain ⟨t2, t3⟩ := hfrom
    simp only [iterCols, bind, Except.bind, t2]
    cases hg : o.cols.get (partner conform d.summaries o.summaries n) with
    | none =>
      simp only [oneCol]
      apply ih _ _ t3 (fun e he => h3 e (List.mem_cons_of_mem _ he))
      obtain ⟨e, he, hl, a, ha, hfit⟩ := h4
      rcases List.mem_cons.1 he with rfl | he
      · simp only at ha; rw [hg] at ha; cases ha
      · exact ⟨e, he, hl, a, ha, hfit⟩
    | some a =>
      by_cases hl : n ∈ d.labels
      · simp only [oneCol, hl, if_true]
        apply ih _ _ t3 (fun e he => h3 e (List.mem_cons_of_mem _ he))
        obtain ⟨e, he, hl', b, hb, hfit⟩ := h4
        rcases List.mem_cons.1 he with rfl | he
        · exact absurd hl hl'
        · exact ⟨e, he, hl', b, hb, hfit⟩
      · cases hfit : a.fits c.vals.length with
        | false => simp [oneCol, hl, single, hfit]
        | true =>
          have hone : ∃ r, oneCol f (.all .no) d.labels n c (some a) = .ok r := by
            simp only [oneCol, hl, if_false, single, hfit, if_true]
            cases hc : c.comp with
            | true => exact ⟨_, by simp [operate, hc, h3 (n, c) (by simp) a hfit hc]; rfl⟩
            | false => exact ⟨c, by simp [operate, hc, FillArg.at]⟩
          obtain ⟨r, hr⟩ := hone
          simp only [hr]
          apply ih _ _ t3 (fun e he => h3 e (List.mem_cons_of_mem _ he))
          obtain ⟨e, he, hl', b, hb, hf'⟩ := h4
          rcases List.mem_cons.1 he with rfl | he
          · simp only at hb hf'
            rw [hg] at hb
            rw [← Option.some.inj hb, hfit] at hf'
            cases hf'
          · exact ⟨e, he, hl', b, hb, hf'⟩

/-- **C86, summaries of another length** raise, whatever they are called. -/
theorem summary_length_raises (f : List V → Arg V → Except Err (Out V)) (nan : V) (g : List V → Arg V → Col V) (a b : Ds V)
    (hw : Wf a) (hc : conforms a (.ds b) = true)
    (hg : ∀ xs (x : Arg V), x.fits xs.length = true → f xs x = .ok (some (g xs x)))
    (k : Nat) (n n' : String) (c c' : Col V) (hk : a.summaries[k]? = some n) (hk' : b.summaries[k]? = some n')
    (hn : a.cols.get n = some c) (hn' : b.cols.get n' = some c') (hl : c'.vals.length ≠ c.vals.length) :
    applyOther f nan (.all .no) a (.ds b) = .error .value := by
  have hc' := hc
  simp only [conforms, Bool.and_eq_true] at hc'
  have hs := summaries_last a b hw hc'.2
  have hget : (Other.cols (.ds b)).get n' = some (.arr c'.vals) := by
    have := get_map_val (fun c : Col V => Arg.arr c.vals) b.cols n'
    rw [hn'] at this; exact this
  have hmem : n ∈ a.summaries := List.mem_of_getElem? hk
  have hidx : a.summaries.idxOf n = k := by
    obtain ⟨hlt, hg⟩ := List.getElem?_eq_some_iff.1 hk
    rw [← hg]; exact List.Nodup.idxOf_getElem hw.summNodup k hlt
  have hp : partner true a.summaries (Other.ds b).summaries n = n' := by
    simp [partner, hmem, hidx, Other.summaries, hk']
  have herr := iterCols_err f g true a (.ds b) hw.summNodup a.cols 0 [] (by intro _; simpa using hs)
    (fun e _ x hx _ => hg _ x hx)
    ⟨(n, c), Dict.mem_of_get hn, fun hl => hw.disjoint n hl hmem, .arr c'.vals, by rw [hp]; exact hget, by simp [Arg.fits, hl]⟩
  unfold applyOther
  split
  · simp only [operateIter, hc, herr, bind, Except.bind]
  · rfl

end Verif.Cols
