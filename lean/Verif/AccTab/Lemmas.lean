import Verif.AccTab.Model
import Verif.Accum.Lemmas
/-! # Lemmas on cross tables -/
namespace Verif.AccTab
open Verif.Items (Name Dict)
open Verif.Accum (foldl_set_append)

variable {L V : Type}

/-! ## Dictionaries -/

theorem setAll_nodup {β : Type} (vals : Dict Name β) (h : vals.keys.Nodup) :
    vals.foldl (fun (d : Dict Name β) (e : Name × β) => d.set e.1 e.2) [] = vals := by
  have := foldl_set_append vals ([] : Dict Name β) (by simpa [Dict.keys] using h)
  simpa using this

theorem footerSet_new (foot : Dict Name (Dict Name V)) (l : Name) (vals : Dict Name V) (hl : l ∉ foot.keys)
    (h : vals.keys.Nodup) : footerSet foot l vals = foot ++ [(l, vals)] := by
  unfold footerSet
  rw [(Dict.get_eq_none_iff _ _).2 hl, Option.getD_none, setAll_nodup vals h, Dict.set_of_notMem hl]

theorem newName_self (o n : Name) : newName o n o = n := by simp [newName]

theorem newName_other {o n c : Name} (h : c ≠ o) : newName o n c = c := by simp [newName, h]

theorem renameKeys_last {β : Type} (C : List Name) (f : Name → β) (o n : Name) (v : β) (h : o ∉ C) :
    renameKeys o n (C.map (fun c => (c, f c)) ++ [(o, v)]) = C.map (fun c => (c, f c)) ++ [(n, v)] := by
  unfold renameKeys
  rw [List.map_append, List.map_map]
  congr 1
  · apply List.map_congr_left
    intro c hc
    have : c ≠ o := fun e => h (e ▸ hc)
    simp [newName_other this]
  · simp [newName_self]

theorem keys_table {β : Type} (C : List Name) (f : Name → β) (d : Dict Name β) :
    Dict.keys (C.map (fun c => (c, f c)) ++ d : Dict Name β) = C ++ d.keys := by
  simp [Dict.keys, List.map_map, Function.comp_def]

theorem get_left {β : Type} (C : List Name) (f : Name → β) (d : Dict Name β) {c : Name} (h : c ∈ C) :
    Dict.get (C.map (fun c => (c, f c)) ++ d : Dict Name β) c = some (f c) := by
  induction C with
  | nil => cases h
  | cons a t ih =>
    rw [List.map_cons, List.cons_append, Dict.get_cons]
    by_cases e : a = c
    · subst e; simp
    · rw [if_neg (by simpa using e)]
      exact ih (by rcases List.mem_cons.1 h with rfl | h; exacts [absurd rfl e, h])

theorem get_right {β : Type} (C : List Name) (f : Name → β) (d : Dict Name β) {c : Name} (h : c ∉ C) :
    Dict.get (C.map (fun c => (c, f c)) ++ d : Dict Name β) c = d.get c := by
  induction C with
  | nil => rfl
  | cons a t ih =>
    rw [List.map_cons, List.cons_append, Dict.get_cons, if_neg ?_]
    · exact ih fun h' => h (List.mem_cons_of_mem _ h')
    · intro e
      apply h
      simp at e
      simp [e]

/-! ## Renaming -/

/-- the table with some label for the footer -/
def tableF (x : Cross L V) (key : Name) (R : List L) (C : List Name) (name l : Name) : Tab L V :=
  { x.table key R C name with foot := [(l, C.map (fun c => (c, x.col c)) ++ [(name, x.all)])] }

theorem renameSummary_table (x : Cross L V) (key : Name) (R : List L) (C : List Name) (s l n : Name) (hC : C.Nodup)
    (hs : s ∉ C) (hn : n ∉ C) (hk : n ≠ key) :
    renameSummary (tableF x key R C s l) n = some (x.table key R C n) := by
  have hfoot : ∀ y, renameFooter n (tableF x key R C n y) = x.table key R C n := by
    intro y
    unfold renameFooter tableF Cross.table
    simp only
    rw [footerSet_new [] n _ (by simp [Dict.keys])]
    · rfl
    · rw [keys_table]
      simp only [Dict.keys, List.map_cons, List.map_nil]
      rw [List.nodup_append]
      refine ⟨hC, by simp, ?_⟩
      intro a ha b hb
      simp at hb
      subst hb
      exact fun e => hn (e ▸ ha)
  have hren : colRename (tableF x key R C s l) s n = some (tableF x key R C n l) := by
    unfold colRename
    by_cases e : s = n
    · subst e; rw [if_pos rfl]
    · rw [if_neg e]
      have h1 : (tableF x key R C s l).cols.keys = C ++ [s] := by
        unfold tableF Cross.table; simp only; rw [keys_table]; rfl
      rw [if_neg (by rw [Bool.not_eq_false, Dict.has_iff, h1]; simp)]
      rw [if_neg ?_]
      · unfold tableF Cross.table
        simp only [List.map_cons, List.map_nil, newName_self]
        rw [renameKeys_last C (fun c => R.map fun r => x.cell r c) s n _ hs, renameKeys_last C (fun c => x.col c) s n _ hs]
      · rintro (h | h)
        · exact hk h
        · rw [Dict.has_iff, h1] at h
          rcases List.mem_append.1 h with h | h
          · exact hn h
          · exact e (List.mem_singleton.1 h).symm
  unfold renameSummary
  show (match (tableF x key R C s l).summ with
    | [s] => (colRename (tableF x key R C s l) s n).map (renameFooter n)
    | _ => some (renameFooter n (tableF x key R C s l))) = _
  have : (tableF x key R C s l).summ = [s] := rfl
  rw [this]
  simp only
  rw [hren, Option.map_some, hfoot]

theorem table_eq_tableF (x : Cross L V) (key : Name) (R : List L) (C : List Name) (s : Name) :
    x.table key R C s = tableF x key R C s s := rfl

theorem renameSummary_clash (x : Cross L V) (key : Name) (R : List L) (C : List Name) (s l n : Name)
    (hs : s ≠ n) (hn : n ∈ C ∨ n = key) : renameSummary (tableF x key R C s l) n = none := by
  unfold renameSummary
  have h1 : (tableF x key R C s l).cols.keys = C ++ [s] := by
    unfold tableF Cross.table; simp only; rw [keys_table]; rfl
  have h2 : (tableF x key R C s l).summ = [s] := rfl
  rw [h2]
  simp only
  unfold colRename
  rw [if_neg hs, if_neg (by rw [Bool.not_eq_false, Dict.has_iff, h1]; simp), if_pos, Option.map_none]
  rcases hn with h | h
  · right
    rw [Dict.has_iff, h1]; simp [h]
  · left; exact h

/-! ## Selecting rows -/

theorem pick_map {α β : Type} (rf : Option (List Bool)) (f : α → β) (l : List α) : pick rf (l.map f) = (pick rf l).map f := by
  unfold pick
  cases rf with
  | none => rfl
  | some m =>
    simp only
    induction l generalizing m with
    | nil => rfl
    | cons a t ih =>
      cases m with
      | nil => simp
      | cons b bs =>
        simp only [List.map_cons, List.zip_cons_cons, List.filter_cons]
        cases b
        · simpa using ih bs
        · simpa using ih bs

/-! ## Margins and footers -/

/-- what the margins are taken from -/
def Holds (h : List (Tab L V)) (t : AT) (key : Name) (R : List L) (C : List Name) (X : Name → Cross L V) (n : Name) : Prop :=
  t.ds h n = some ((X n).table key R C n)

theorem table_get_name (x : Cross L V) (key : Name) (R : List L) {C : List Name} {n : Name} (h : n ∉ C) :
    (x.table key R C n).cols.get n = some (R.map x.row) := by
  unfold Cross.table
  simp only
  rw [get_right C (fun c => R.map fun r => x.cell r c) _ h]
  simp [Dict.get_cons]

/-- the table while the margins are added -/
def grown (x : Cross L V) (R : List L) (C : List Name) (name : Name) (tot : Bool) (X : Name → Cross L V) (ms : List Name) :
    Dict Name (List V) :=
  C.map (fun c => (c, R.map fun r => x.cell r c)) ++ ((if tot then [(name, R.map x.row)] else []) ++
      ms.map fun m => (m, R.map (X m).row))

theorem keys_grown (x : Cross L V) (R : List L) (C : List Name) (name : Name) (tot : Bool) (X : Name → Cross L V)
    (ms : List Name) : (grown x R C name tot X ms).keys = C ++ ((if tot then [name] else []) ++ ms) := by
  unfold grown
  rw [keys_table]
  congr 1
  cases tot <;> simp [Dict.keys, List.map_map, Function.comp_def]

theorem margins_fold (h : List (Tab L V)) (t : AT) (key : Name) (R : List L) (C : List Name) (X : Name → Cross L V)
    (rf : Option (List Bool)) (x : Cross L V) (D : List Name) (name : Name) (tot : Bool) (s0 : Tab L V) (hk0 : s0.key = key)
    (hr0 : s0.rows = pick rf R) (hD : ∀ c ∈ D, c ∈ C) :
    ∀ (ms done : List Name) (sm : List Name), (∀ m ∈ ms, Holds h t key R C X m ∧ m ∉ C ∧ m ≠ key ∧ m ≠ name) →
      (done ++ ms).Nodup →
      ms.foldl (addMargin h t rf) (some ({ s0 with cols := grown x (pick rf R) D name tot X done }, sm)) =
        some ({ s0 with cols := grown x (pick rf R) D name tot X (done ++ ms) }, sm ++ ms) := by
  intro ms
  induction ms with
  | nil => intro done sm _ _; simp
  | cons m ms ih =>
    intro done sm hm hnd
    obtain ⟨h1, h2, h3, h4⟩ := hm m (by simp)
    rw [List.foldl_cons]
    have hstep : addMargin h t rf (some ({ s0 with cols := grown x (pick rf R) D name tot X done }, sm)) m =
        some ({ s0 with cols := grown x (pick rf R) D name tot X (done ++ [m]) }, sm ++ [m]) := by
      unfold addMargin
      unfold Holds at h1
      simp only [Option.bind_some]
      rw [h1]
      simp only [Option.bind_some]
      rw [table_get_name _ _ _ h2]
      simp only [Option.bind_some]
      rw [if_pos ⟨by rw [pick_map, List.length_map, hr0], by rw [hk0]; exact h3⟩]
      have hnot : m ∉ (grown x (pick rf R) D name tot X done).keys := by
        rw [keys_grown]
        intro hmem
        rcases List.mem_append.1 hmem with hc | hc
        · exact h2 (hD m hc)
        · rcases List.mem_append.1 hc with hc | hc
          · split at hc
            · exact h4 (by simpa using hc)
            · cases hc
          · rw [List.nodup_append] at hnd
            exact hnd.2.2 m hc m (by simp) rfl
      rw [Dict.set_of_notMem hnot, pick_map]
      unfold grown
      simp
    rw [hstep, ih (done ++ [m]) (sm ++ [m]) (fun m' hm' => hm m' (List.mem_cons_of_mem _ hm')) (by simpa using hnd)]
    simp

/-- the footers taken over from the other tables -/
def footOf (D ms : List Name) (X : Name → Cross L V) (f : Name) : Name × Dict Name V :=
  (f, D.map (fun c => (c, (X f).col c)) ++ if f ∈ ms then [(f, (X f).all)] else [])

theorem footers_fold (h : List (Tab L V)) (t : AT) (key : Name) (R : List L) (C : List Name) (X : Name → Cross L V)
    (s0 : Tab L V) (D ms extra : List Name) (hk : s0.cols.keys = D ++ (extra ++ ms)) (hD : ∃ p : Name → Bool, D = C.filter p) (hC : C.Nodup) :
    ∀ (fs : List Name) (F : Dict Name (Dict Name V)),
      (∀ f ∈ fs, Holds h t key R C X f ∧ f ∉ C ∧ f ∉ extra) → (F.keys ++ fs).Nodup → (∀ e ∈ extra, e ∉ C) → (∀ m ∈ ms, m ∉ C) →
      fs.foldl (addFooter h t) (some { s0 with foot := F }) =
        some { s0 with foot := F ++ fs.map (footOf D ms X) } := by
  intro fs
  induction fs with
  | nil => intro F _ _ _ _; simp
  | cons f fs ih =>
    intro F hf hnd he hms
    obtain ⟨h1, h2, h3⟩ := hf f (by simp)
    rw [List.foldl_cons]
    obtain ⟨p, rfl⟩ := hD
    have hstep : addFooter h t (some { s0 with foot := F }) f = some { s0 with foot := F ++ [footOf (C.filter p) ms X f] } := by
      unfold addFooter
      unfold Holds at h1
      simp only [Option.bind_some]
      rw [h1]
      simp only [Option.bind_some]
      have hg : ((X f).table key R C f).foot.get f = some (C.map (fun c => (c, (X f).col c)) ++ [(f, (X f).all)]) := by
        simp [Cross.table, Dict.get_cons]
      rw [hg, Option.map_some]
      have hfil : (C.map (fun c => (c, (X f).col c)) ++ [(f, (X f).all)] : Dict Name V).filter (fun e => s0.cols.has e.1) =
          (footOf (C.filter p) ms X f).2 := by
        rw [List.filter_append]
        unfold footOf
        simp only
        congr 1
        · rw [List.filter_map]
          congr 1
          apply List.filter_congr
          intro c hc
          simp only [Function.comp_apply]
          have : (s0.cols.has c = true) ↔ p c = true := by
            rw [Dict.has_iff, hk]
            constructor
            · intro hm
              rcases List.mem_append.1 hm with hm | hm
              · exact (List.mem_filter.1 hm).2
              · rcases List.mem_append.1 hm with hm | hm
                · exact absurd hc (he c hm)
                · exact absurd hc (hms c hm)
            · intro hp
              exact List.mem_append_left _ (List.mem_filter.2 ⟨hc, hp⟩)
          rw [Bool.eq_iff_iff]
          exact this
        · have : (s0.cols.has f = true) ↔ f ∈ ms := by
            rw [Dict.has_iff, hk]
            constructor
            · intro hm
              rcases List.mem_append.1 hm with hm | hm
              · exact absurd (List.mem_filter.1 hm).1 h2
              · rcases List.mem_append.1 hm with hm | hm
                · exact absurd hm h3
                · exact hm
            · intro hm; simp [hm]
          by_cases hfm : f ∈ ms
          · rw [if_pos hfm, List.filter_cons_of_pos (by simpa using this.2 hfm)]; rfl
          · rw [if_neg hfm, List.filter_cons_of_neg (by simpa using fun h => hfm (this.1 h))]; rfl
      rw [hfil, footerSet_new]
      · rfl
      · intro hmem
        rw [List.nodup_append] at hnd
        exact hnd.2.2 f hmem f (by simp) rfl
      · unfold footOf
        simp only
        rw [keys_table]
        rw [List.nodup_append]
        refine ⟨hC.filter _, by split <;> simp [Dict.keys], ?_⟩
        intro a ha b hb
        split at hb
        · simp [Dict.keys] at hb
          subst hb
          exact fun e => h2 (e ▸ (List.mem_filter.1 ha).1)
        · cases hb
    rw [hstep, ih (F ++ [footOf (C.filter p) ms X f]) (fun f' hf' => hf f' (List.mem_cons_of_mem _ hf')) ?_ he hms]
    · simp
    · have : Dict.keys (F ++ [footOf (C.filter p) ms X f]) = F.keys ++ [f] := by simp [Dict.keys, footOf]
      rw [this]
      simpa using hnd

/-- the whole of `gen` on cross tables -/
theorem gen_cross (h : List (Tab L V)) (t : AT) (key : Name) (R : List L) (C : List Name) (X : Name → Cross L V) (name : Name)
    (rf : Option (List Bool)) (cf : Name → Bool) (hC : C.Nodup) (hm : t.margins.Nodup) (hf : t.footers.Nodup)
    (hX : ∀ n, n = name ∨ n ∈ t.margins ∨ n ∈ t.footers → Holds h t key R C X n ∧ n ∉ C ∧ n ≠ key) :
    gen h t name rf cf = some ((X name).withMargins key (pick rf R) (C.filter cf) name (cf name)
      ((t.margins.filter fun m => m ≠ name).map fun m => (m, X m)) ((t.footers.filter fun f => f ≠ name).map fun f => (f, X f))) := by
  obtain ⟨hn1, hn2, hn3⟩ := hX name (Or.inl rfl)
  unfold gen
  unfold Holds at hn1
  rw [hn1, Option.bind_some]
  generalize hms : (t.margins.filter fun m => m ≠ name) = ms
  generalize hfs : (t.footers.filter fun f => f ≠ name) = fs
  have hmsn : ms.Nodup := hms ▸ hm.filter _
  have hfsn : fs.Nodup := hfs ▸ hf.filter _
  have hmem : ∀ m ∈ ms, m ∈ t.margins ∧ m ≠ name := fun m h => by rw [← hms] at h; simpa using h
  have hmemf : ∀ f ∈ fs, f ∈ t.footers ∧ f ≠ name := fun m h => by rw [← hfs] at h; simpa using h
  set c0 := clean ((X name).table key R C name) rf cf with hc0
  have hcols : c0.cols = grown (X name) (pick rf R) (C.filter cf) name (cf name) X [] := by
    rw [hc0]
    unfold clean grown Cross.table
    simp only
    rw [List.filter_append, List.map_append]
    congr 1
    · rw [List.filter_map, List.map_map]
      apply List.map_congr_left
      intro c _
      simp [pick_map]
    · cases hcn : cf name <;> simp [hcn, pick_map]
  have hc0e : c0 = { c0 with cols := grown (X name) (pick rf R) (C.filter cf) name (cf name) X [] } := by
    rw [← hcols]
  have hfold := margins_fold h t key R C X rf (X name) (C.filter cf) name (cf name) c0 rfl rfl
    (fun c hc => (List.mem_filter.1 hc).1) ms [] c0.summ
    (fun m hm => by
      obtain ⟨a, b⟩ := hmem m hm
      obtain ⟨h1, h2, h3⟩ := hX m (Or.inr (Or.inl a))
      exact ⟨h1, h2, h3, b⟩) (by simpa using hmsn)
  rw [← hc0e, List.nil_append] at hfold
  rw [hfold, Option.bind_some]
  simp only
  have hsumm : c0.summ = if cf name then [name] else [] := by
    rw [hc0]; unfold clean Cross.table; simp only
    cases hcn : cf name <;> simp [hcn]
  have hfoot0 : c0.foot = [(name, (C.filter cf).map (fun c => (c, (X name).col c)) ++ if cf name then [(name, (X name).all)] else [])] := by
    rw [hc0]; unfold clean Cross.table; simp only
    rw [List.map_cons, List.map_nil, List.filter_append, List.filter_map]
    cases hcn : cf name
    · simp [hcn, Function.comp_def]
    · simp [hcn, Function.comp_def]
  set c1 : Tab L V := setSumm { c0 with cols := grown (X name) (pick rf R) (C.filter cf) name (cf name) X ms } (c0.summ ++ ms) with hc1
  have hc1s : c1.summ = (if cf name then [name] else []) ++ ms := by
    rw [hc1]
    unfold setSumm
    simp only
    rw [hsumm, List.filter_eq_self]
    intro n hn
    rw [Dict.has_iff, keys_grown]
    exact List.mem_append_right _ hn
  have hc1k : c1.cols.keys = C.filter cf ++ ((if cf name then [name] else []) ++ ms) := by
    rw [hc1]; unfold setSumm; simp only; rw [keys_grown]
  have hff := footers_fold h t key R C X c1 (C.filter cf) ms (if cf name then [name] else []) hc1k ⟨cf, rfl⟩ hC fs c1.foot
    (fun f hf => by
      obtain ⟨a, b⟩ := hmemf f hf
      obtain ⟨h1, h2, h3⟩ := hX f (Or.inr (Or.inr a))
      refine ⟨h1, h2, ?_⟩
      split
      · simpa using b
      · simp)
    (by
      have : c1.foot.keys = [name] := by
        show c0.foot.keys = [name]
        rw [hfoot0]; rfl
      rw [this, List.nodup_append]
      refine ⟨by simp, hfsn, ?_⟩
      intro a ha b hb
      simp at ha
      subst ha
      exact fun e => (hmemf b hb).2 e.symm)
    (by
      intro e he
      split at he
      · simp at he; rw [he]; exact hn2
      · cases he)
    (fun m hm => (hX m (Or.inr (Or.inl (hmem m hm).1))).2.1)
  have hid : ({ c1 with foot := c1.foot } : Tab L V) = c1 := rfl
  rw [hid] at hff
  rw [hff]
  congr 1
  unfold Cross.withMargins
  have hmap : (ms.map fun m => (m, X m)).map Prod.fst = ms := by simp [List.map_map, Function.comp_def]
  have e1 : c1.key = key := rfl
  have e2 : c1.rows = pick rf R := rfl
  have e3 : c1.cols = grown (X name) (pick rf R) (C.filter cf) name (cf name) X ms := rfl
  have e4 : c1.foot = c0.foot := rfl
  rw [e4, hfoot0]
  simp only [hmap, List.map_map, Function.comp_def]
  congr 1

end Verif.AccTab
