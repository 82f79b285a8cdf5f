import Verif.AccTab.Arith
/-! # `accum_ratiop` -/
namespace Verif.AccTab
open Verif.Items (Name Dict)

variable {L V : Type}

/-- the columns in `K` changed -/
def upd {β : Type} (f : Name → β → β) (K : List Name) (d : Dict Name β) : Dict Name β :=
  d.map fun e => if e.1 ∈ K then (e.1, f e.1 e.2) else e

theorem keys_upd {β : Type} (f : Name → β → β) (K : List Name) (d : Dict Name β) : (upd f K d).keys = d.keys := by
  unfold upd Dict.keys
  rw [List.map_map]
  apply List.map_congr_left
  intro e _
  simp only [Function.comp_apply]
  split <;> rfl

theorem fold_upd {β : Type} (st : Option (Dict Name β) → Name → Option (Dict Name β)) (f : Name → β → β) (I : Dict Name β → Prop)
    (K : List Name)
    (hst : ∀ d n v, I d → n ∈ K → d.get n = some v → st (some d) n = some (d.set n (f n v)) ∧ I (d.set n (f n v))) :
    ∀ (K' : List Name), (∀ n ∈ K', n ∈ K) → K'.Nodup → ∀ d : Dict Name β, I d → d.keys.Nodup → (∀ n ∈ K', n ∈ d.keys) →
      K'.foldl st (some d) = some (upd f K' d) := by
  intro K'
  induction K' with
  | nil =>
    intro _ _ d _ _ _
    simp [upd]
  | cons n K' ih =>
    intro hK hnd d hI hd hk
    have hn : n ∈ d.keys := hk n (by simp)
    obtain ⟨v, hv⟩ : ∃ v, d.get n = some v := by
      cases h : d.get n with
      | none => exact absurd hn ((Dict.get_eq_none_iff _ _).1 h)
      | some v => exact ⟨v, rfl⟩
    obtain ⟨h1, h2⟩ := hst d n v hI (hK n (by simp)) hv
    rw [List.nodup_cons] at hnd
    rw [List.foldl_cons, h1, ih (fun m hm => hK m (List.mem_cons_of_mem _ hm)) hnd.2 _ h2 (by rw [Dict.keys_set_of_mem hn]; exact hd)
      (by rw [Dict.keys_set_of_mem hn]; exact fun m hm => hk m (List.mem_cons_of_mem _ hm))]
    congr 1
    rw [Dict.set_of_mem hn]
    unfold upd
    rw [List.map_map]
    apply List.map_congr_left
    intro e he
    simp only [Function.comp_apply]
    by_cases hen : e.1 = n
    · subst hen
      have : e.2 = v := by
        have := Dict.get_of_mem hd (k := e.1) (v := e.2) he
        rw [hv] at this
        exact (Option.some.inj this).symm
      simp [hnd.1, this]
    · simp [hen]

theorem setAll_same {β : Type} : ∀ (vals done rest : Dict Name β), rest.keys = vals.keys → (done ++ vals : Dict Name β).keys.Nodup →
    vals.foldl (fun (d : Dict Name β) (e : Name × β) => d.set e.1 e.2) (done ++ rest) = done ++ vals := by
  intro vals
  induction vals with
  | nil =>
    intro done rest h _
    have : rest = [] := by simpa [Dict.keys] using h
    simp [this]
  | cons e vals ih =>
    intro done rest h hnd
    cases rest with
    | nil => simp [Dict.keys] at h
    | cons w rest =>
      have hw : w.1 = e.1 ∧ Dict.keys rest = Dict.keys vals := by simpa [Dict.keys] using h
      rw [List.foldl_cons]
      have hmem : e.1 ∈ (done ++ w :: rest : Dict Name β).keys := by simp [Dict.keys, hw.1]
      have hset : (done ++ w :: rest : Dict Name β).set e.1 e.2 = (done ++ [e]) ++ rest := by
        rw [Dict.set_of_mem hmem, List.map_append, List.map_cons]
        have hnd' : (Dict.keys done ++ e.1 :: Dict.keys vals).Nodup := by simpa [Dict.keys] using hnd
        rw [List.nodup_append] at hnd'
        have h1 : done.map (fun a => if a.1 = e.1 then (e.1, e.2) else a) = done := by
          conv => rhs; rw [← List.map_id done]
          apply List.map_congr_left
          intro a ha
          rw [if_neg]; · rfl
          exact hnd'.2.2 a.1 (List.mem_map_of_mem ha) e.1 (by simp)
        have h2 : rest.map (fun a => if a.1 = e.1 then (e.1, e.2) else a) = rest := by
          conv => rhs; rw [← List.map_id rest]
          apply List.map_congr_left
          intro a ha
          rw [if_neg]; · rfl
          intro hae
          have : a.1 ∈ Dict.keys vals := hw.2 ▸ List.mem_map_of_mem ha
          exact (List.nodup_cons.1 hnd'.2.1).1 (hae ▸ this)
        rw [h1, h2, if_pos hw.1]
        simp
      rw [hset, ih (done ++ [e]) rest hw.2 (by simpa using hnd)]
      simp

/-- footers of a label replaced -/
theorem footerSet_same (F : Dict Name (Dict Name V)) (l : Name) (row vals : Dict Name V) (hF : l ∉ F.keys) (hk : row.keys = vals.keys)
    (hn : vals.keys.Nodup) : footerSet ((l, row) :: F) l vals = (l, vals) :: F := by
  unfold footerSet
  have hg : Dict.get ((l, row) :: F) l = some row := by simp [Dict.get_cons]
  rw [hg, Option.getD_some]
  have := setAll_same vals [] row hk (by simpa using hn)
  rw [List.nil_append, List.nil_append] at this
  rw [this, Dict.set_of_mem (by simp [Dict.keys]), List.map_cons, if_pos rfl]
  congr 1
  conv => rhs; rw [← List.map_id F]
  apply List.map_congr_left
  intro a ha
  rw [if_neg]; · rfl
  exact fun e => hF (e ▸ List.mem_map_of_mem ha)

section
variable (x : Cross L V) (key : Name) (R : List L) (C : List Name) (ms fs : List (Name × Cross L V))

theorem keys_withMargins (tot : Bool) (n : Name) :
    (x.withMargins key R C n tot ms fs).cols.keys = C ++ ((if tot then [n] else []) ++ ms.map Prod.fst) := by
  unfold Cross.withMargins
  simp only
  rw [keys_table]
  congr 1
  cases tot <;> simp [Dict.keys, List.map_map, Function.comp_def]

theorem normKeys_eq (hTR : nTR ∉ C) (hms : ∀ m ∈ ms, m.1 ∉ C ∧ m.1 ≠ nTR) :
    normKeys (x.withMargins key R C nTR true ms fs) = C ++ [nTR] := by
  unfold normKeys
  rw [keys_withMargins]
  have hs : (x.withMargins key R C nTR true ms fs).summ = nTR :: ms.map Prod.fst := by simp [Cross.withMargins]
  rw [hs]
  simp only [if_true, List.filter_append]
  have h1 : (C.filter fun n => decide (n ∉ nTR :: ms.map Prod.fst ∨ n = nTR)) = C := by
    rw [List.filter_eq_self]
    intro c hc
    rw [decide_eq_true_eq]
    left
    intro h
    rcases List.mem_cons.1 h with h | h
    · exact hTR (h ▸ hc)
    · obtain ⟨m, hm, rfl⟩ := List.mem_map.1 h
      exact (hms m hm).1 hc
  have h2 : ((ms.map Prod.fst).filter fun n => decide (n ∉ nTR :: ms.map Prod.fst ∨ n = nTR)) = [] := by
    rw [List.filter_eq_nil_iff]
    intro n hn
    rw [decide_eq_true_eq]
    obtain ⟨m, hm, rfl⟩ := List.mem_map.1 hn
    rintro (h | h)
    · exact h (List.mem_cons_of_mem _ (List.mem_map_of_mem hm))
    · exact (hms m hm).2 h
  rw [h1, h2]
  simp

theorem nodup_cols (hC : C.Nodup) (hTR : nTR ∉ C) (hms : ∀ m ∈ ms, m.1 ∉ C ∧ m.1 ≠ nTR) (hmn : (ms.map Prod.fst).Nodup) :
    (x.withMargins key R C nTR true ms fs).cols.keys.Nodup := by
  rw [keys_withMargins]
  simp only [if_true, List.singleton_append]
  rw [List.nodup_append]
  refine ⟨hC, ?_, ?_⟩
  · rw [List.nodup_cons]
    refine ⟨?_, hmn⟩
    intro h
    obtain ⟨m, hm, e⟩ := List.mem_map.1 h
    exact (hms m hm).2 e
  · intro a ha b hb
    rcases List.mem_cons.1 hb with rfl | hb
    · exact fun e => hTR (e ▸ ha)
    · obtain ⟨m, hm, rfl⟩ := List.mem_map.1 hb
      exact fun e => (hms m hm).1 (e ▸ ha)

theorem upd_cols (f : Name → List V → List V) (K : List Name) (hK : ∀ c ∈ C, c ∈ K) (hms : ∀ m ∈ ms, m.1 ∉ K) :
    upd f K (x.withMargins key R C nTR true ms fs).cols =
      C.map (fun c => (c, f c (R.map fun r => x.cell r c))) ++
        ([(nTR, if nTR ∈ K then f nTR (R.map x.row) else R.map x.row)] ++ ms.map fun m => (m.1, R.map m.2.row)) := by
  unfold upd Cross.withMargins
  simp only [if_true, List.map_append, List.map_map, List.map_cons, List.map_nil]
  congr 1
  · apply List.map_congr_left
    intro c hc
    simp [hK c hc]
  · congr 1
    · split <;> rfl
    · apply List.map_congr_left
      intro m hm
      simp [hms m hm]

theorem foot_withMargins : (x.withMargins key R C nTR true ms fs).foot =
    (nTR, C.map (fun c => (c, x.col c)) ++ [(nTR, x.all)]) ::
      fs.map fun f => (f.1, C.map (fun c => (c, f.2.col c)) ++ if f.1 ∈ ms.map Prod.fst then [(f.1, f.2.all)] else []) := by
  simp [Cross.withMargins]

theorem nodup_row (hC : C.Nodup) (hTR : nTR ∉ C) (g : Name → V) (v : V) :
    (Dict.keys (C.map (fun c => (c, g c)) ++ [(nTR, v)])).Nodup := by
  rw [keys_table, List.nodup_append]
  refine ⟨hC, by simp [Dict.keys], ?_⟩
  intro a ha b hb
  simp [Dict.keys] at hb
  subst hb
  exact fun e => hTR (e ▸ ha)

theorem get_row_total (hTR : nTR ∉ C) (g : Name → V) (v : V) : Dict.get (C.map (fun c => (c, g c)) ++ [(nTR, v)]) nTR = some v := by
  rw [get_right C g _ hTR]
  simp [Dict.get_cons]

/-- Percentages of a table with margins: every cell and total against everything, its row or its
column; the other margins are not changed. -/
theorem normalize_cross (pct : V → V → V) (hundred : V) (by' : Norm) (hC : C.Nodup) (hTR : nTR ∉ C)
    (hms : ∀ m ∈ ms, m.1 ∉ C ∧ m.1 ≠ nTR) (hmn : (ms.map Prod.fst).Nodup) (hfs : ∀ f ∈ fs, f.1 ≠ nTR) :
    normalize pct hundred by' (x.withMargins key R C nTR true ms fs) =
      some ((x.percent pct hundred by').withMargins key R C nTR true ms fs) := by
  have hnd := nodup_cols x key R C ms fs hC hTR hms hmn
  have hK := normKeys_eq x key R C ms fs hTR hms
  have hCK : (C ++ [nTR]).Nodup := by
    rw [List.nodup_append]
    exact ⟨hC, by simp, fun a ha b hb => by simp at hb; subst hb; exact fun e => hTR (e ▸ ha)⟩
  have hsub : ∀ n ∈ C ++ [nTR], n ∈ (x.withMargins key R C nTR true ms fs).cols.keys := by
    intro n hn
    rw [keys_withMargins]
    simp only [if_true]
    rcases List.mem_append.1 hn with h | h
    · exact List.mem_append_left _ h
    · exact List.mem_append_right _ (List.mem_append_left _ h)
  have hmsK : ∀ m ∈ ms, m.1 ∉ C ++ [nTR] := by
    intro m hm h
    rcases List.mem_append.1 h with h | h
    · exact (hms m hm).1 h
    · exact (hms m hm).2 (by simpa using h)
  set W := x.withMargins key R C nTR true ms fs with hW
  have hg : W.foot.get nTR = some (C.map (fun c => (c, x.col c)) ++ [(nTR, x.all)]) := by
    rw [hW, foot_withMargins]; simp [Dict.get_cons]
  have hgt := get_row_total C hTR x.col x.all
  have hF : nTR ∉ Dict.keys (fs.map fun f => (f.1, C.map (fun c => (c, f.2.col c)) ++ if f.1 ∈ ms.map Prod.fst then [(f.1, f.2.all)] else [])) := by
    intro h
    unfold Dict.keys at h
    rw [List.map_map] at h
    obtain ⟨f, hf, e⟩ := List.mem_map.1 h
    exact hfs f hf e
  have hfoot : ∀ (g : Name → V) (v : V), footerSet W.foot nTR (C.map (fun c => (c, g c)) ++ [(nTR, v)]) =
      (nTR, C.map (fun c => (c, g c)) ++ [(nTR, v)]) ::
      fs.map fun f => (f.1, C.map (fun c => (c, f.2.col c)) ++ if f.1 ∈ ms.map Prod.fst then [(f.1, f.2.all)] else []) := by
    intro g v
    rw [hW, foot_withMargins, footerSet_same _ _ _ _ hF]
    · rw [keys_table, keys_table]; rfl
    · exact nodup_row C hC hTR g v
  have hcolfold : ∀ total : Name → Option V, ∀ tt : Name → V, (∀ n ∈ C ++ [nTR], total n = some (tt n)) →
      (C ++ [nTR]).foldl (fun o n => normCol pct o total n) (some W.cols) =
        some (upd (fun n v => v.map fun a => pct a (tt n)) (C ++ [nTR]) W.cols) := by
    intro total tt htt
    apply fold_upd (fun o n => normCol pct o total n) (fun n v => v.map fun a => pct a (tt n)) (fun _ => True) (C ++ [nTR])
    · intro d n v _ hn hv
      refine ⟨?_, trivial⟩
      unfold normCol
      rw [Option.bind_some, hv, Option.bind_some, htt n hn]
      rfl
    · exact fun _ h => h
    · exact hCK
    · trivial
    · exact hnd
    · exact hsub
  unfold normalize
  rw [hg, Option.bind_some]
  cases by' with
  | T =>
    simp only
    rw [hgt, Option.bind_some, hK, hcolfold _ (fun _ => x.all) (fun _ _ => rfl), Option.map_some]
    congr 1
    have hv : (C.map (fun c => (c, x.col c)) ++ [(nTR, x.all)] : Dict Name V).map (fun e => (e.1, pct e.2 x.all)) =
        C.map (fun c => (c, pct (x.col c) x.all)) ++ [(nTR, pct x.all x.all)] := by simp
    rw [hv, hfoot, hW, upd_cols x key R C ms fs _ _ (fun c hc => List.mem_append_left _ hc) hmsK]
    simp [Cross.withMargins, Cross.percent, Function.comp_def]
  | C =>
    simp only
    have htt : ∀ n ∈ C ++ [nTR], Dict.get (C.map (fun c => (c, x.col c)) ++ [(nTR, x.all)]) n =
        some (if n = nTR then x.all else x.col n) := by
      intro n hn
      rcases List.mem_append.1 hn with h | h
      · rw [get_left C x.col _ h, if_neg (fun e : n = nTR => hTR (e ▸ h))]
      · have : n = nTR := by simpa using h
        rw [this, hgt, if_pos rfl]
    rw [hK, hcolfold _ _ htt, Option.map_some]
    congr 1
    have hv : (C.map (fun c => (c, x.col c)) ++ [(nTR, x.all)] : Dict Name V).map (fun e => (e.1, hundred)) =
        C.map (fun c => (c, hundred)) ++ [(nTR, hundred)] := by simp
    rw [hv, hfoot (fun _ => hundred), hW, upd_cols x key R C ms fs _ _ (fun c hc => List.mem_append_left _ hc) hmsK]
    have hcell : C.map (fun c => (c, (R.map fun r => x.cell r c).map fun a => pct a (if c = nTR then x.all else x.col c))) =
        C.map fun c => (c, R.map fun r => pct (x.cell r c) (x.col c)) := by
      apply List.map_congr_left
      intro c hc
      rw [if_neg (fun e : c = nTR => hTR (e ▸ hc)), List.map_map]; rfl
    rw [hcell]
    simp [Cross.withMargins, Cross.percent, Function.comp_def]
  | R =>
    simp only
    rw [hgt, Option.bind_some, hK, List.foldl_append]
    have hT : W.cols.get nTR = some (R.map x.row) := by
      apply Dict.get_of_mem hnd
      rw [hW]; simp [Cross.withMargins]
    have hf1 : C.foldl (normRow pct) (some W.cols) = some (upd (fun _ v => List.zipWith pct v (R.map x.row)) C W.cols) := by
      apply fold_upd (normRow pct) (fun _ v => List.zipWith pct v (R.map x.row)) (fun d => d.get nTR = some (R.map x.row)) C
      · intro d n v hI hn hv
        refine ⟨?_, ?_⟩
        · unfold normRow
          rw [Option.bind_some, hv, Option.bind_some, hI, Option.map_some]
        · rw [Dict.get_set, if_neg (fun e : nTR = n => hTR (e ▸ hn))]
          exact hI
      · exact fun _ h => h
      · exact hC
      · exact hT
      · exact hnd
      · exact fun n hn => hsub n (List.mem_append_left _ hn)
    rw [hf1, hW, upd_cols x key R C ms fs _ C (fun c hc => hc) (fun m hm => (hms m hm).1), if_neg hTR]
    have hcell : C.map (fun c => (c, List.zipWith pct (R.map fun r => x.cell r c) (R.map x.row))) =
        C.map fun c => (c, R.map fun r => pct (x.cell r c) (x.row r)) := by
      apply List.map_congr_left
      intro c _
      rw [zipWith_map_same]
    rw [hcell]
    set D : Dict Name (List V) := C.map (fun c => (c, R.map fun r => pct (x.cell r c) (x.row r))) ++
      ([(nTR, R.map x.row)] ++ ms.map fun m => (m.1, R.map m.2.row)) with hD
    have hDk : D.keys = C ++ ([nTR] ++ ms.map Prod.fst) := by
      rw [hD, keys_table]; simp [Dict.keys, List.map_map, Function.comp_def]
    have hDg : D.get nTR = some (R.map x.row) := by
      rw [hD, get_right C (fun c => R.map fun r => pct (x.cell r c) (x.row r)) _ hTR]
      simp [Dict.get_cons]
    have hlast : [nTR].foldl (normRow pct) (some D) = some (D.set nTR (R.map fun r => pct (x.row r) (x.row r))) := by
      rw [List.foldl_cons, List.foldl_nil]
      unfold normRow
      rw [Option.bind_some, hDg, Option.bind_some, Option.map_some, zipWith_map_same]
    rw [hlast, Option.map_some]
    congr 1
    have hset : D.set nTR (R.map fun r => pct (x.row r) (x.row r)) =
        C.map (fun c => (c, R.map fun r => pct (x.cell r c) (x.row r))) ++
      ([(nTR, R.map fun r => pct (x.row r) (x.row r))] ++ ms.map fun m => (m.1, R.map m.2.row)) := by
      rw [Dict.set_of_mem (by rw [hDk]; simp), hD, List.map_append, List.map_append]
      congr 1
      · rw [List.map_map]
        apply List.map_congr_left
        intro c hc
        have : c ≠ nTR := fun e => hTR (e ▸ hc)
        simp [this]
      · simp only [List.map_cons, List.map_nil, if_true]
        congr 1
        rw [List.map_map]
        apply List.map_congr_left
        intro m hm
        simp [(hms m hm).2]
    have hv : (C.map (fun c => (c, x.col c)) ++ [(nTR, x.all)] : Dict Name V).map (fun e => (e.1, pct e.2 x.all)) =
        C.map (fun c => (c, pct (x.col c) x.all)) ++ [(nTR, pct x.all x.all)] := by simp
    rw [hv, ← hW, hfoot, hset, hW]
    simp [Cross.withMargins, Cross.percent, Function.comp_def]

end

end Verif.AccTab
