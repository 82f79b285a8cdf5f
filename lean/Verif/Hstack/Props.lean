import Verif.Hstack.Model
/-!
# C36: stacking Datasets aligns rows
-/
namespace Verif.Hstack
open Verif.Items
variable {V : Type}

/-! ## Specification -/

/-- number of rows -/
def Ds.n (d : Ds V) : Nat := d.nrows.getD 0

/-- a Dataset: distinct names, columns of one length; without a number of rows there are no columns -/
structure Ds.WF (d : Ds V) : Prop where
  names : (Dict.keys d.cols).Nodup
  len : ∀ (n : Name) (c : Col V), Dict.get d.cols n = some c → c.vals.length = d.n
  empty : d.nrows = none → d.cols = []

/-- what a Dataset contributes to a column -/
def contribution (n : Name) (d : Ds V) : List (Option V) :=
  match Dict.get d.cols n with
  | some c => c.vals
  | none => List.replicate d.n none

/-- names occurring in some Dataset -/
def inSome (dss : List (Ds V)) (n : Name) : Prop := ∃ d ∈ dss, n ∈ Dict.keys d.cols

/-- columns of a name can be stacked -/
def Stackable (dss : List (Ds V)) : Prop :=
  ∀ n, ∀ d ∈ dss, ∀ d' ∈ dss, ∀ c c' : Col V, Dict.get d.cols n = some c → Dict.get d'.cols n = some c' →
    (c.dim = 1 ∨ c.dim = 2) ∧ c.dim = c'.dim ∧ (c.dim = 2 → c.width = c'.width)

/-! ## Gaps -/

theorem addGap_flatten (inv : Nat) (cl : List (List (Option V))) :
    (addGap inv cl).1 = 0 ∧ (addGap inv cl).2.flatten = cl.flatten ++ List.replicate inv none := by
  unfold addGap
  by_cases h : inv > 0
  · rw [if_pos h]; simp
  · have : inv = 0 := by omega
    subst this; simp

theorem colStep_flatten (n : Name) (ds : Ds V) (hw : ds.WF) (st : Nat × List (List (Option V))) :
    (colStep n st ds).2.flatten ++ List.replicate (colStep n st ds).1 none =
      st.2.flatten ++ List.replicate st.1 none ++ contribution n ds := by
  unfold colStep contribution
  cases hr : ds.nrows with
  | none =>
    have hc := hw.empty hr
    rw [hc]
    simp [Ds.n, hr]
  | some k =>
    dsimp only
    cases hg : Dict.get ds.cols n with
    | some c =>
      obtain ⟨h1, h2⟩ := addGap_flatten (V := V) st.1 st.2
      dsimp only
      rw [h1, List.flatten_append, h2]
      simp
    | none =>
      dsimp only
      rw [List.append_assoc, List.replicate_append_replicate, Ds.n, hr]
      rfl

/-- the loop with its running gap gives the contributions one after the other -/
theorem stackCol_eq (dss : List (Ds V)) (hw : ∀ d ∈ dss, d.WF) (n : Name) : stackCol dss n = dss.flatMap (contribution n) := by
  have key : ∀ (dss : List (Ds V)), (∀ d ∈ dss, d.WF) → ∀ st : Nat × List (List (Option V)),
      (dss.foldl (colStep n) st).2.flatten ++ List.replicate (dss.foldl (colStep n) st).1 none =
        st.2.flatten ++ List.replicate st.1 none ++ dss.flatMap (contribution n) := by
    intro dss
    induction dss with
    | nil => intro _ st; simp
    | cons d ds ih =>
      intro hw st
      rw [List.foldl_cons, ih (fun d' hd' => hw d' (by simp [hd'])), colStep_flatten n d (hw d (by simp)), List.flatMap_cons]
      simp [List.append_assoc]
  unfold stackCol
  dsimp only
  rw [(addGap_flatten _ _).2, key dss hw]
  simp

theorem contribution_length (n : Name) (d : Ds V) (hw : d.WF) : (contribution n d).length = d.n := by
  unfold contribution
  cases hg : Dict.get d.cols n with
  | some c => exact hw.len n c hg
  | none => simp

/-! ## Names and checks -/

theorem pushDict_keys_nodup (d : Dict Name (List Nat)) (n : Name) (x : Nat) (h : (Dict.keys d).Nodup) : (Dict.keys (pushDict d n x)).Nodup := by
  unfold pushDict
  by_cases hm : n ∈ Dict.keys d
  · rw [Dict.set_of_mem hm]
    have : Dict.keys (d.map fun e => if e.1 = n then (n, (Dict.get d n).getD [] ++ [x]) else e) = Dict.keys d := by
      unfold Dict.keys
      rw [List.map_map]
      refine List.map_congr_left fun e _ => ?_
      simp only [Function.comp]
      split
      · rename_i he; exact he.symm
      · rfl
    rw [this]; exact h
  · rw [Dict.set_of_notMem hm]
    unfold Dict.keys at *
    rw [List.map_append]
    exact List.Nodup.append h (by simp) (by simpa using hm)

theorem pushDict_get (d : Dict Name (List Nat)) (n : Name) (x : Nat) (m : Name) :
    (Dict.get (pushDict d n x) m).getD [] = (Dict.get d m).getD [] ++ (if m = n then [x] else []) := by
  unfold pushDict
  rw [Dict.get_set]
  by_cases h : m = n
  · subst h; simp
  · simp [h]

theorem pushDict_mem (d : Dict Name (List Nat)) (n : Name) (x : Nat) (m : Name) :
    m ∈ Dict.keys (pushDict d n x) ↔ m ∈ Dict.keys d ∨ m = n := by
  have h1 := Dict.get_eq_none_iff (pushDict d n x) m
  have h2 := Dict.get_eq_none_iff d m
  unfold pushDict at *
  rw [Dict.get_set] at h1
  by_cases h : m = n
  · subst h
    rw [if_pos rfl] at h1
    simp at h1
    simp [h1]
  · rw [if_neg h] at h1
    simp only [h, or_false]
    by_cases hx : m ∈ Dict.keys d
    · simp only [hx, iff_true]
      by_contra hc
      exact (h2.1 (h1.2 hc)) hx
    · simp only [hx, iff_false]
      exact h1.1 (h2.2 hx)

/-- what `collect` gathers -/
theorem collect_spec (dss : List (Ds V)) :
    (Dict.keys (collect dss).1).Nodup ∧
    (∀ n, n ∈ Dict.keys (collect dss).1 ↔ n ∈ (dss.flatMap (·.cols)).map (·.1)) ∧
    (∀ n, (Dict.get (collect dss).1 n).getD [] = ((dss.flatMap (·.cols)).filter (fun e => e.1 = n)).map fun e => e.2.dim) ∧
    (∀ n, (Dict.get (collect dss).2 n).getD [] =
      ((dss.flatMap (·.cols)).filter (fun e => e.1 = n ∧ e.2.dim = 2)).map fun e => e.2.width) := by
  unfold collect
  generalize dss.flatMap (·.cols) = ps
  induction ps using List.reverseRecOn with
  | nil => simp [Dict.keys]
  | append_singleton ps e ih =>
    obtain ⟨i1, i2, i3, i4⟩ := ih
    rw [List.foldl_append]
    simp only [List.foldl_cons, List.foldl_nil]
    refine ⟨pushDict_keys_nodup _ _ _ i1, ?_, ?_, ?_⟩
    · intro n
      rw [pushDict_mem, i2, List.map_append]
      simp
    · intro n
      rw [pushDict_get, i3, List.filter_append, List.map_append]
      congr 1
      by_cases h : e.1 = n
      · simp [h]
      · simp [h, Ne.symm h]
    · intro n
      rw [List.filter_append, List.map_append, ← i4]
      by_cases hd : e.2.dim = 2
      · rw [if_pos hd, pushDict_get]
        congr 1
        by_cases h : e.1 = n
        · simp [h, hd]
        · simp [h, Ne.symm h]
      · rw [if_neg hd]
        simp [hd]

/-- names appear in the order of their first appearance -/
theorem collect_keys (dss : List (Ds V)) : Dict.keys (collect dss).1 = (dss.flatMap fun d => Dict.keys d.cols).eraseDups := by
  have hm : (dss.flatMap fun d => Dict.keys d.cols) = (dss.flatMap (·.cols)).map (·.1) := by
    rw [List.map_flatMap]; rfl
  rw [hm]
  unfold collect
  generalize dss.flatMap (·.cols) = ps
  induction ps using List.reverseRecOn with
  | nil => simp [Dict.keys]
  | append_singleton ps e ih =>
    rw [List.foldl_append, List.map_append, List.eraseDups_append, ← ih]
    simp only [List.foldl_cons, List.foldl_nil, List.map_cons, List.map_nil]
    have hmem : e.1 ∈ Dict.keys ((ps.foldl (fun st e => (pushDict st.1 e.1 e.2.dim,
        if e.2.dim = 2 then pushDict st.2 e.1 e.2.width else st.2)) (([], []) : Dict Name (List Nat) × Dict Name (List Nat))).1) ↔
        e.1 ∈ ps.map (·.1) := by
      rw [ih, List.mem_eraseDups]
    unfold pushDict at *
    by_cases h : e.1 ∈ ps.map (·.1)
    · rw [Dict.keys_set_of_mem (hmem.2 h)]
      have : [e.1].removeAll (ps.map (·.1)) = [] := by
        simp only [List.removeAll, List.filter_cons, List.filter_nil]
        rw [if_neg (by simpa using h)]
      rw [this]; simp
    · rw [Dict.keys_set_of_notMem (fun hx => h (hmem.1 hx))]
      have : [e.1].removeAll (ps.map (·.1)) = [e.1] := by
        simp only [List.removeAll, List.filter_cons, List.filter_nil]
        rw [if_pos (by simpa using h)]
      rw [this]; simp [List.eraseDups_cons]

theorem several_false_iff (l : List Nat) : several l = false ↔ ∀ x ∈ l, ∀ y ∈ l, x = y := by
  unfold several
  rw [List.any_eq_false]
  constructor
  · intro h x hx y hy
    have h1 := h x hx
    have h2 := h y hy
    simp only [ne_eq, decide_eq_true_eq, Decidable.not_not] at h1 h2
    rw [← h2] at h1
    exact Option.some.inj h1
  · intro h x hx
    cases l with
    | nil => simp at hx
    | cons a l => simp [h x hx a (by simp)]

theorem mapM_unit_ok {α : Type} (l : List α) (f : α → Except String Unit) :
    (∃ r, l.mapM f = .ok r) ↔ ∀ a ∈ l, f a = .ok () := by
  induction l with
  | nil => exact ⟨fun _ => by simp, fun _ => ⟨[], rfl⟩⟩
  | cons a l ih =>
    rw [List.mapM_cons]
    cases ha : f a with
    | error e =>
      constructor
      · rintro ⟨r, hr⟩; simp [bind, Except.bind] at hr
      · intro h; have := h a (by simp); rw [ha] at this; simp at this
    | ok u =>
      constructor
      · rintro ⟨r, hr⟩
        have : ∃ r, l.mapM f = .ok r := by
          cases hl : l.mapM f with
          | error e => rw [hl] at hr; simp [bind, Except.bind] at hr
          | ok r' => exact ⟨r', rfl⟩
        intro b hb
        rcases List.mem_cons.1 hb with rfl | hb
        · exact ha
        · exact ih.1 this b hb
      · intro h
        obtain ⟨r, hr⟩ := ih.2 fun b hb => h b (by simp [hb])
        exact ⟨u :: r, by rw [hr]; rfl⟩

theorem mem_pairs {dss : List (Ds V)} (hw : ∀ d ∈ dss, d.WF) {n : Name} {c : Col V} :
    (n, c) ∈ dss.flatMap (·.cols) ↔ ∃ d ∈ dss, Dict.get d.cols n = some c := by
  rw [List.mem_flatMap]
  constructor
  · rintro ⟨d, hd, h⟩
    exact ⟨d, hd, Dict.get_of_mem (hw d hd).names h⟩
  · rintro ⟨d, hd, h⟩
    exact ⟨d, hd, Dict.mem_of_get h⟩

/-- the checks succeed exactly for stackable columns -/
theorem checks_ok_iff {dss : List (Ds V)} (hw : ∀ d ∈ dss, d.WF) :
    (∀ n ∈ Dict.keys (collect dss).1, checkName (collect dss).1 (collect dss).2 n = .ok ()) ↔ Stackable dss := by
  obtain ⟨_, hk, hd, hs⟩ := collect_spec dss
  have hone : ∀ n, n ∈ Dict.keys (collect dss).1 → (checkName (collect dss).1 (collect dss).2 n = .ok () ↔
      ∀ d ∈ dss, ∀ d' ∈ dss, ∀ c c' : Col V, Dict.get d.cols n = some c → Dict.get d'.cols n = some c' →
        (c.dim = 1 ∨ c.dim = 2) ∧ c.dim = c'.dim ∧ (c.dim = 2 → c.width = c'.width)) := by
    intro n hn
    rw [hk, List.mem_map] at hn
    obtain ⟨⟨n0, c0⟩, he0, rfl⟩ := hn
    dsimp only
    unfold checkName
    rw [hd, hs]
    dsimp only
    generalize hps : dss.flatMap (·.cols) = ps at *
    have hdim : ∀ x, x ∈ (ps.filter (fun e => e.1 = n0)).map (fun e => e.2.dim) ↔ ∃ c, (n0, c) ∈ ps ∧ c.dim = x := by
      intro x
      simp only [List.mem_map, List.mem_filter, decide_eq_true_eq]
      constructor
      · rintro ⟨⟨m, c⟩, ⟨h1, rfl⟩, h2⟩; exact ⟨c, h1, h2⟩
      · rintro ⟨c, h1, h2⟩; exact ⟨(n0, c), ⟨h1, rfl⟩, h2⟩
    have hwid : ∀ x, x ∈ (ps.filter (fun e => e.1 = n0 ∧ e.2.dim = 2)).map (fun e => e.2.width) ↔
        ∃ c, (n0, c) ∈ ps ∧ c.dim = 2 ∧ c.width = x := by
      intro x
      simp only [List.mem_map, List.mem_filter, decide_eq_true_eq]
      constructor
      · rintro ⟨⟨m, c⟩, ⟨h1, rfl, h3⟩, h2⟩; exact ⟨c, h1, h3, h2⟩
      · rintro ⟨c, h1, h2, h3⟩; exact ⟨(n0, c), ⟨h1, rfl, h2⟩, h3⟩
    generalize hD : (ps.filter (fun e => e.1 = n0)).map (fun e => e.2.dim) = D at *
    generalize hW : (ps.filter (fun e => e.1 = n0 ∧ e.2.dim = 2)).map (fun e => e.2.width) = W at *
    have hc0 : c0.dim ∈ D := (hdim _).2 ⟨c0, he0, rfl⟩
    have hhead : D.headD 0 ∈ D := by
      cases D with
      | nil => simp at hc0
      | cons a l => simp
    constructor
    · intro h d hd d' hd' c c' hc hc'
      have hcp : (n0, c) ∈ ps := by rw [← hps]; exact (mem_pairs hw).2 ⟨d, hd, hc⟩
      have hcp' : (n0, c') ∈ ps := by rw [← hps]; exact (mem_pairs hw).2 ⟨d', hd', hc'⟩
      have h1 : several D = false := by
        by_contra hx
        rw [if_pos (by simpa using hx)] at h; simp at h
      rw [if_neg (by simp [h1])] at h
      have h1' := (several_false_iff D).1 h1
      have hcd : c.dim ∈ D := (hdim _).2 ⟨c, hcp, rfl⟩
      have hcd' : c'.dim ∈ D := (hdim _).2 ⟨c', hcp', rfl⟩
      have h2 : D.headD 0 = 1 ∨ D.headD 0 = 2 := by
        by_contra hx
        rw [not_or] at hx
        rw [if_pos hx] at h; simp at h
      rw [if_neg (by omega)] at h
      have hch := h1' _ hcd _ hhead
      refine ⟨by omega, h1' _ hcd _ hcd', fun h22 => ?_⟩
      have h3 : several W = false := by
        by_contra hx
        rw [if_pos ⟨by omega, by simpa using hx⟩] at h; simp at h
      have hcc := h1' _ hcd _ hcd'
      exact (several_false_iff W).1 h3 _ ((hwid _).2 ⟨c, hcp, h22, rfl⟩) _ ((hwid _).2 ⟨c', hcp', by omega, rfl⟩)
    · intro h
      have h' : ∀ c c' : Col V, (n0, c) ∈ ps → (n0, c') ∈ ps →
          (c.dim = 1 ∨ c.dim = 2) ∧ c.dim = c'.dim ∧ (c.dim = 2 → c.width = c'.width) := by
        intro c c' hc hc'
        rw [← hps] at hc hc'
        obtain ⟨d, hd, hc⟩ := (mem_pairs hw).1 hc
        obtain ⟨d', hd', hc'⟩ := (mem_pairs hw).1 hc'
        exact h d hd d' hd' c c' hc hc'
      have h1 : several D = false := by
        rw [several_false_iff]
        intro x hx y hy
        obtain ⟨c, hc, rfl⟩ := (hdim x).1 hx
        obtain ⟨c', hc', rfl⟩ := (hdim y).1 hy
        exact (h' c c' hc hc').2.1
      have hh : D.headD 0 = 1 ∨ D.headD 0 = 2 := by
        obtain ⟨c, hc, he⟩ := (hdim _).1 hhead
        rw [← he]; exact (h' c c hc hc).1
      have h3 : several W = false := by
        rw [several_false_iff]
        intro x hx y hy
        obtain ⟨c, hc, h2, rfl⟩ := (hwid x).1 hx
        obtain ⟨c', hc', _, rfl⟩ := (hwid y).1 hy
        exact (h' c c' hc hc').2.2 h2
      rw [if_neg (by simp [h1]), if_neg (by omega), if_neg (by simp [h3])]
  constructor
  · intro h n d hd d' hd' c c' hc hc'
    have hm : n ∈ Dict.keys (collect dss).1 := by
      rw [hk, List.mem_map]
      exact ⟨(n, c), (mem_pairs hw).2 ⟨d, hd, hc⟩, rfl⟩
    exact (hone n hm).1 (h n hm) d hd d' hd' c c' hc hc'
  · intro h n hn
    exact (hone n hn).2 (h n)

/-! ## C36 -/

/-- **C36** Stacking two or more Datasets succeeds exactly when the columns of each name have the same shape; the result has
each name of any Dataset once, in the order of first appearance, with that shape, and every column consists of the rows of the Datasets in order, invalid rows for a Dataset
that lacks the column. -/
theorem hstack_dataset_correct (dss : List (Ds V)) (h2 : 2 ≤ dss.length) (hw : ∀ d ∈ dss, d.WF) :
    ((∃ r, hstackDs dss = .ok r) ↔ Stackable dss) ∧
    ∀ r, hstackDs dss = .ok r →
      (Dict.keys r.cols).Nodup ∧ (∀ n, n ∈ Dict.keys r.cols ↔ inSome dss n) ∧
      Dict.keys r.cols = (dss.flatMap fun d => Dict.keys d.cols).eraseDups ∧
      (∀ k, r.nrows = some k → k = (dss.map Ds.n).sum) ∧
      ∀ (n : Name) (c : Col V), Dict.get r.cols n = some c →
        c.vals = dss.flatMap (contribution n) ∧ c.vals.length = (dss.map Ds.n).sum ∧
        ∀ d ∈ dss, ∀ c' : Col V, Dict.get d.cols n = some c' → c.dim = c'.dim ∧ (c.dim = 2 → c.width = c'.width) := by
  match dss, h2 with
  | a :: b :: rest, _ =>
    generalize hd : a :: b :: rest = dss at hw
    have hun : hstackDs dss = match (collect dss).1.keys.mapM (checkName (collect dss).1 (collect dss).2) with
      | .error e => .error e
      | .ok _ =>
        .ok ⟨(((collect dss).1.keys.map fun n =>
          (n, (⟨((firstCol dss n).map (·.dim)).getD 0, ((firstCol dss n).map (·.width)).getD 0, stackCol dss n⟩ : Col V))).head?).map fun e => e.2.vals.length,
          (collect dss).1.keys.map fun n =>
          (n, (⟨((firstCol dss n).map (·.dim)).getD 0, ((firstCol dss n).map (·.width)).getD 0, stackCol dss n⟩ : Col V))⟩ := by
      rw [← hd]; rfl
    rw [hun]
    have hlen : ∀ n, (stackCol dss n).length = (dss.map Ds.n).sum := by
      intro n
      rw [stackCol_eq dss hw, List.length_flatMap]
      congr 1
      exact List.map_congr_left fun d hd' => contribution_length n d (hw d hd')
    constructor
    · rw [← checks_ok_iff hw, ← mapM_unit_ok]
      cases hm : (collect dss).1.keys.mapM (checkName (collect dss).1 (collect dss).2) with
      | error e => simp
      | ok r => simp
    · intro r hr
      cases hm : (collect dss).1.keys.mapM (checkName (collect dss).1 (collect dss).2) with
      | error e => rw [hm] at hr; simp at hr
      | ok r0 =>
        rw [hm] at hr
        simp only [Except.ok.injEq] at hr
        subst hr
        obtain ⟨hn, hk, _, _⟩ := collect_spec dss
        have hkeys : Dict.keys ((collect dss).1.keys.map fun n =>
          (n, (⟨((firstCol dss n).map (·.dim)).getD 0, ((firstCol dss n).map (·.width)).getD 0, stackCol dss n⟩ : Col V))) = (collect dss).1.keys := by
          conv_lhs => unfold Dict.keys
          rw [List.map_map]
          exact List.map_id _
        dsimp only
        rw [hkeys]
        refine ⟨hn, fun n => ?_, collect_keys dss, ?_, fun n c hc => ?_⟩
        · rw [hk, List.mem_map]
          unfold inSome Dict.keys
          constructor
          · rintro ⟨e, he, rfl⟩
            obtain ⟨d, hd', he⟩ := List.mem_flatMap.1 he
            exact ⟨d, hd', List.mem_map_of_mem (f := Prod.fst) he⟩
          · rintro ⟨d, hd', hn'⟩
            obtain ⟨e, he, rfl⟩ := List.mem_map.1 hn'
            exact ⟨e, List.mem_flatMap.2 ⟨d, hd', he⟩, rfl⟩
        · intro k hk'
          cases hl : (collect dss).1.keys with
          | nil => rw [hl] at hk'; simp at hk'
          | cons n0 l =>
            rw [hl] at hk'
            simp only [List.map_cons, List.head?_cons, Option.map_some, Option.some.injEq] at hk'
            rw [← hk']; exact hlen n0
        · have := Dict.mem_of_get hc
          obtain ⟨n', _, he⟩ := List.mem_map.1 this
          simp only [Prod.mk.injEq] at he
          obtain ⟨rfl, rfl⟩ := he
          dsimp only
          refine ⟨stackCol_eq dss hw n', hlen n', fun d hdm c' hc' => ?_⟩
          have hst := (checks_ok_iff hw).1 ((mapM_unit_ok _ _).1 ⟨r0, hm⟩)
          unfold firstCol
          cases hf : dss.findSome? fun d => Dict.get d.cols n' with
          | none =>
            rw [List.findSome?_eq_none_iff] at hf
            rw [hf d hdm] at hc'
            simp at hc'
          | some c0 =>
            obtain ⟨d0, hd0, hc0⟩ := List.exists_of_findSome?_eq_some hf
            exact (hst n' d0 hd0 d hdm c0 c' hc0 hc').2

/-- **C36** Row `j` of Dataset `i` is row `j` plus the number of rows of the Datasets before it. -/
theorem hstack_dataset_row (pre post : List (Ds V)) (d : Ds V) (hw : ∀ x ∈ pre ++ d :: post, x.WF) (n : Name) (j : Nat) (hj : j < d.n) :
    ((pre ++ d :: post).flatMap (contribution n))[(pre.map Ds.n).sum + j]? = (contribution n d)[j]? := by
  have hl : (pre.flatMap (contribution n)).length = (pre.map Ds.n).sum := by
    rw [List.length_flatMap]
    congr 1
    exact List.map_congr_left fun x hx => contribution_length n x (hw x (by simp [hx]))
  have hc := contribution_length n d (hw d (by simp))
  rw [List.flatMap_append, List.flatMap_cons, ← hl, List.getElem?_append_right (by omega),
    List.getElem?_append_left (by omega)]
  congr 1; omega

/-- One Dataset is returned as it is. -/
theorem hstack_single (d : Ds V) : hstackDs [d] = .ok d := rfl

/-! ## The Categorical of `hstack_dict` -/

theorem ikeyLoop_spec (bits : Nat) (lens : List Nat) (i : Nat) (done buf : List Int) (hb : buf.length = lens.sum) :
    ikeyLoop bits i (Cat.cumsum done.length lens) done.length (done ++ buf) =
      done ++ (lens.zipIdx i).flatMap fun p => List.replicate p.1 (Cat.store bits ((p.2 : Int) + 1)) := by
  induction lens generalizing i done buf with
  | nil =>
    have : buf = [] := List.length_eq_zero_iff.1 (by simpa using hb)
    simp [Cat.cumsum, ikeyLoop, this]
  | cons k lens ih =>
    rw [List.sum_cons] at hb
    simp only [Cat.cumsum, ikeyLoop, List.zipIdx_cons, List.flatMap_cons]
    have hw : Cat.sliceWrite (done ++ buf) done.length (List.replicate (done.length + k - done.length) (Cat.store bits ((i : Int) + 1))) =
        (done ++ List.replicate k (Cat.store bits ((i : Int) + 1))) ++ buf.drop k := by
      unfold Cat.sliceWrite
      rw [show done.length + k - done.length = k by omega, List.take_left, List.drop_append, List.length_replicate]
      simp
    rw [hw]
    have := ih (i + 1) (done ++ List.replicate k (Cat.store bits ((i : Int) + 1))) (buf.drop k) (by rw [List.length_drop]; omega)
    rw [List.length_append, List.length_replicate] at this
    rw [this, List.append_assoc]

/-- Every row of item `i` gets code `i + 1`, hence the name of its item, if the number of items fits the integer type
(which is chosen by the number of *rows*). -/
theorem hstack_dict_codes_partial (lens : List Nat) (buf : List Int) (hb : buf.length = lens.sum)
    (hf : (lens.length : Int) < 2 ^ (bitsFromLen lens.sum - 1)) :
    hstackDictCodes lens buf = lens.zipIdx.flatMap fun p => List.replicate p.1 ((p.2 : Int) + 1) := by
  unfold hstackDictCodes
  have := ikeyLoop_spec (bitsFromLen lens.sum) lens 0 [] buf hb
  simp only [List.length_nil, List.nil_append] at this
  rw [this]
  unfold List.flatMap
  congr 1
  refine List.map_congr_left fun p hp => ?_
  have hlt : p.2 < lens.length := by
    have := List.mem_zipIdx hp
    omega
  have hbits : 1 ≤ bitsFromLen lens.sum := by unfold bitsFromLen; split <;> (try split) <;> (try split) <;> omega
  rw [Cat.store_fits hbits (by omega) (by omega)]

/-! ## Examples and counterexamples -/

def nA : Name := ['a']
def nB : Name := ['b']
def dsX : Ds Nat := ⟨some 2, [(nA, ⟨1, 0, [some 1, some 2]⟩)]⟩
def dsY : Ds Nat := ⟨some 1, [(nB, ⟨1, 0, [some 9]⟩)]⟩
def dsZ : Ds Nat := ⟨none, []⟩

theorem wf_of_single (n : Nat) (nm : Name) (c : Col Nat) (h : c.vals.length = n) : Ds.WF (⟨some n, [(nm, c)]⟩ : Ds Nat) := by
  refine ⟨by simp [Dict.keys], ?_, by simp⟩
  intro m c' hc
  have := Dict.mem_of_get hc
  simp at this
  obtain ⟨rfl, rfl⟩ := this
  exact h

example : ∀ d ∈ [dsX, dsY, dsZ, dsY, dsX], d.WF := by
  intro d hd
  simp at hd
  rcases hd with rfl | rfl | hd
  · exact wf_of_single 2 nA _ rfl
  · exact wf_of_single 1 nB _ rfl
  · rcases hd with rfl | rfl | rfl
    · exact ⟨by simp [dsZ, Dict.keys], fun n c h => by simp [dsZ] at h, fun _ => rfl⟩
    · exact wf_of_single 1 nB _ rfl
    · exact wf_of_single 2 nA _ rfl

example : (hstackDs [dsX, dsY, dsZ, dsY, dsX]).toOption.map (·.cols) =
    some [(nA, ⟨1, 0, [some 1, some 2, none, none, some 1, some 2]⟩), (nB, ⟨1, 0, [none, none, some 9, some 9, none, none]⟩)] := by
  decide

/-- 127 empty items before an item with one row: its code is stored in 8 bits and becomes negative. -/
theorem hstack_dict_overflow_counterexample : ∃ lens : List Nat, lens = List.replicate 127 0 ++ [1] ∧ hstackDictCodes lens [0] = [-128] :=
  ⟨_, rfl, by decide +kernel⟩

end Verif.Hstack
