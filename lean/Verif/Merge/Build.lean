import Verif.Merge.Keys

/-! The two index builders, in terms of the rows matching each group number. -/
namespace Verif.Merge
section
variable {K : Type} [DecidableEq K] {lkeys rkeys : List (Option K)} {L R : Grouping K}

/-- entries of the right selector for one left row -/
def pad (inner : Bool) (js : List Nat) : List (Option Nat) :=
  if js = [] then (if inner then [] else [none]) else js.map some

theorem sel_eq_nil (k : Option Keep) (js : List Nat) : sel k js = [] ↔ js = [] := by
  cases k with
  | none => rfl
  | some k => cases k <;> cases js <;> simp [sel]

theorem fetchKeymap_eq (hL : L.WF lkeys) (hR : R.WF rkeys) (hl : L.ikey ≠ []) (hr : R.ikey ≠ [])
    (cs : List Nat) (hcs : ∀ c ∈ cs, c ≤ L.gbkeys.length) :
    fetchKeymap (keyMaps L R).2.2 cs = cs.map fun c => (partner L R c).map (· + 1) := by
  unfold fetchKeymap
  apply List.map_congr_left
  intro c hc
  have hle := hcs c hc
  have hmaplen : (keyMaps L R).2.2.length = L.gbkeys.length + 1 := by
    simp [keyMaps, scatter]
  rw [hmaplen]
  rcases Nat.eq_zero_or_pos c with h0 | h0
  · subst h0; simp [partner]
  · rw [if_neg (by omega)]
    have hget : (keyMaps L R).2.2.getD (c - 1) none = partner L R c := by
      have h := scatter_partner hL.nodup hR.nodup 0 (List.replicate (L.gbkeys.length + 1) (none : Option Nat))
        ((List.range R.gbkeys.length).map some) (by simp) (by simp) (c - 1) (by omega)
      have hmap : (keyMaps L R).2.2 = scatter (List.replicate (L.gbkeys.length + 1) (none : Option Nat))
          ((maskSel (ismember R.gbkeys L.gbkeys) ((ismember R.gbkeys L.gbkeys).map Option.isSome)).map
            fun o => o.getD 0 + 0)
          (maskSel ((List.range R.gbkeys.length).map some) ((ismember R.gbkeys L.gbkeys).map Option.isSome)) := by
        unfold keyMaps boolToFancy
        simp only [List.length_eq_zero_iff, hl, hr, or_self, if_false, ncountgroup_length,
          List.length_map, maskSel_map, Nat.add_zero]
        congr 3
        simp [ismember]
      rw [List.getD_eq_getElem?_getD, hmap, show c - 1 = c - 1 + 0 from rfl, h,
        show c - 1 + 1 = c by omega]
      cases hp : partner L R c with
      | none => simp only [List.getElem?_replicate]; split <;> rfl
      | some r =>
        obtain ⟨_, k, _, hk⟩ := (partner_eq_some hR.nodup _ _).mp hp
        simp [List.getElem?_range (List.getElem?_eq_some_iff.mp hk).1]
    rw [hget]
    cases partner L R c <;> rfl

theorem partner_lt (hR : R.WF rkeys) {c r : Nat} (h : partner L R c = some r) : r < R.gbkeys.length := by
  obtain ⟨_, k, _, hk⟩ := (partner_eq_some hR.nodup _ _).mp h
  exact (List.getElem?_eq_some_iff.mp hk).1

/-- the copy loop of `_build_right_fancyindex_impl` -/
theorem rightImpl_eq (hR : R.WF rkeys) (g0 : Option Nat) (inner : Bool) (cs : List Nat) :
    let keyids := cs.map fun c => (partner L R c).map (· + 1)
    let cum := cumsum ((take R.ncountgroup keyids).map fun o => o.getD (if inner then 0 else 1))
    rightImpl keyids R.ifirstgroup R.igroup cum (List.replicate (cum.getLast?.getD 0) g0) =
      cs.flatMap fun c => pad inner (rowsFor L R c) := by
  intro keyids cum
  set counts := (take R.ncountgroup keyids).map fun o => o.getD (if inner then 0 else 1) with hcounts
  set blk : Nat → List (Option Nat) := fun i => pad inner (rowsFor L R (cs.getD i 0)) with hblk
  have hclen : counts.length = cs.length := by simp [hcounts, take, keyids]
  have hcount : ∀ i, i < cs.length → counts.getD i 0 = (blk i).length := by
    intro i hi
    have hci : cs[i]? = some (cs.getD i 0) := by
      simp [List.getD_eq_getElem?_getD, List.getElem?_eq_getElem hi]
    rw [List.getD_eq_getElem?_getD (l := counts)]
    simp only [hcounts, take, keyids, List.getElem?_map, hci,
      Option.map_some, Option.getD_some, hblk]
    generalize cs.getD i 0 = c
    cases hp : partner L R c with
    | none => cases inner <;> simp [rowsFor, hp, pad]
    | some r =>
      have hlt := partner_lt hR hp
      have hne := rowsOf_ne_nil hR r hlt
      simp [rowsFor, hp, pad, hne, ncountgroup_getElem? R (r + 1) (by omega)]
  have hlens : ∀ i, i < counts.length → (blk i).length = counts.getD i 0 := fun i hi =>
    (hcount i (by omega)).symm
  have hsum := length_flatMap_range blk counts hlens
  have hflat : (List.range cs.length).flatMap blk = cs.flatMap fun c => pad inner (rowsFor L R c) := by
    have : cs = (List.range cs.length).map fun i => cs.getD i 0 := by
      apply List.ext_getElem (by simp)
      intro i h1 h2
      simp [List.getElem?_eq_getElem h1]
    conv_rhs => rw [this]
    rw [List.flatMap_map]
  have hlast : cum.getLast?.getD 0 = counts.sum := cumsum_last counts
  unfold rightImpl
  have hklen : keyids.length = cs.length := by simp [keyids]
  rw [hklen, hlast]
  obtain ⟨rest, hr⟩ := fold_blocks (List.replicate counts.sum g0)
    (rightImplIter keyids R.ifirstgroup R.igroup cum (List.replicate counts.sum g0).length) blk cs.length (by
    intro i hi pre rest hpre hlen
    have hp : pre.length = (counts.take i).sum := by rw [hpre]; exact hsum i (by omega)
    have hoff : blockStart cum i = pre.length := by
      rw [hp]; exact blockStart_cumsum counts i (by omega)
    have hci : counts[i]? = some (counts.getD i 0) := by
      simp [List.getD_eq_getElem?_getD, List.getElem?_eq_getElem (show i < counts.length by omega)]
    have htake : (counts.take (i + 1)).sum = pre.length + counts.getD i 0 := by
      rw [List.take_succ, hci, hp]; simp
    have hend : cum.getD i 0 = pre.length + counts.getD i 0 := by
      rw [← htake]; exact cumsum_getD counts i (by omega)
    have hle : (counts.take (i + 1)).sum ≤ counts.sum := by
      conv_rhs => rw [← List.take_append_drop (i + 1) counts, List.sum_append]
      omega
    simp only [List.length_replicate] at hlen
    have hkey : keyids.getD i none = (partner L R (cs.getD i 0)).map (· + 1) := by
      have hcs : cs[i]? = some (cs.getD i 0) := by
        simp [List.getD_eq_getElem?_getD, List.getElem?_eq_getElem hi]
      rw [List.getD_eq_getElem?_getD]
      simp only [keyids, List.getElem?_map, hcs, Option.map_some, Option.getD_some]
    have hb := hcount i hi
    unfold rightImplIter
    simp only [List.length_replicate, hoff, hkey]
    cases hpart : partner L R (cs.getD i 0) with
    | none =>
      simp only [Option.map_none]
      have hrows : rowsFor L R (cs.getD i 0) = [] := by simp only [rowsFor, hpart]
      have hblki : blk i = if inner then [] else [none] := by simp only [hblk, hrows, pad, if_true]
      split
      · rename_i hlt
        obtain ⟨x, xs, rfl⟩ : ∃ x xs, rest = x :: xs := by
          cases rest with
          | nil => simp at hlen; omega
          | cons x xs => exact ⟨x, xs, rfl⟩
        cases inner
        · exact ⟨xs, by rw [hblki]; simp⟩
        · exact ⟨none :: xs, by rw [hblki]; simp⟩
      · rename_i hlt
        cases inner
        · exfalso
          rw [hblki] at hb
          simp only [Bool.false_eq_true, if_false, List.length_cons, List.length_nil] at hb
          omega
        · exact ⟨rest, by rw [hblki]; simp⟩
    | some r =>
      simp only [Option.map_some]
      have hlt := partner_lt hR hpart
      have hne := rowsOf_ne_nil hR r hlt
      have hrows : rowsFor L R (cs.getD i 0) = rowsOf R.ikey (r + 1) := by simp only [rowsFor, hpart]
      have hblki : blk i = (rowsOf R.ikey (r + 1)).map some := by
        simp only [hblk, hrows, pad, hne, if_false]
      have hbl : counts.getD i 0 = (rowsOf R.ikey (r + 1)).length := by rw [hb, hblki]; simp
      have hpos := List.length_pos_iff.mpr hne
      rw [if_pos (by omega), if_neg (by simp; omega)]
      refine ⟨rest.drop (counts.getD i 0), ?_⟩
      rw [hend, Nat.add_sub_cancel_left]
      rw [applyWrites_block pre (fun j => some (R.igroup.getD (R.ifirstgroup.getD (r + 1) 0 + j) 0)) _ rest
        (by omega)]
      congr 2
      rw [hblki, hbl]
      apply List.ext_getElem
      · simp
      · intro j h1 h2
        simp only [List.getElem_map, List.getElem_range]
        rw [igroup_getD R (r + 1) j (by omega) (by simpa using h2)])
  rw [hr, hflat]
  have hl := congrArg List.length hr
  rw [applyWrites_length, List.length_append, List.length_replicate,
    show cs.length = counts.length from hclen.symm, hsum _ le_rfl, List.take_length] at hl
  have : rest = [] := List.length_eq_zero_iff.mp (by omega)
  simp [this]

theorem keepRows_getElem? (hR : R.WF rkeys) (k : Keep) (r : Nat) (h : r < R.gbkeys.length) :
    (keepRows R k)[r]? = some ((sel (some k) (rowsOf R.ikey (r + 1))).headD 0) := by
  have hne := rowsOf_ne_nil hR r h
  cases k
  · cases hh : rowsOf R.ikey (r + 1) with
    | nil => exact absurd hh hne
    | cons a l => simp [keepRows, Grouping.ifirstkey, List.getElem?_range h, sel, hh]
  · have := List.getLast?_eq_some_getLast hne
    simp [keepRows, Grouping.ilastkey, List.getElem?_range h, sel, this]

/-- `_build_right_fancyindex` lists, for each left group number, the kept
matching right rows. -/
theorem buildRight_eq (hL : L.WF lkeys) (hR : R.WF rkeys) (g0 : Option Nat) (inner : Bool)
    (keepL keepR : Option Keep) (cs : List Nat)
    (hcs : cs = keepIkeyWithNull L keepL)
    (hle : ∀ c ∈ cs, c ≤ L.gbkeys.length) (hne : cs ≠ [] → L.ikey ≠ []) :
    buildRight g0 (keyMaps L R).2.2 L R inner keepL keepR =
      cs.flatMap fun c => pad inner (sel keepR (rowsFor L R c)) := by
  unfold buildRight
  simp only [← hcs]
  by_cases h0 : cs = []
  · simp [h0]
  · rw [if_neg (by simpa using h0)]
    by_cases hr : R.ikey = []
    · have hg := WF.gbkeys_nil hR hr
      have hp : ∀ c, partner L R c = none := by intro c; unfold partner; split <;> simp [hg]
      have hrf : ∀ c, rowsFor L R c = [] := by intro c; simp [rowsFor, hp]
      have hs : ∀ c, sel keepR (rowsFor L R c) = [] := fun c => (sel_eq_nil _ _).mpr (hrf c)
      simp only [hr, List.length_nil, if_true, hs, pad]
      cases inner
      · simp only [Bool.false_eq_true, if_false]
        clear hcs hle hne h0
        induction cs with
        | nil => rfl
        | cons c cs ih => simp [List.replicate_succ, ih]
      · simp
    · rw [if_neg (by simpa using hr)]
      rw [fetchKeymap_eq hL hR (hne h0) hr cs hle]
      cases keepR with
      | none => exact rightImpl_eq hR g0 inner cs
      | some k =>
        simp only
        have hone : ∀ c r, partner L R c = some r →
            (keepRows R k)[r]?.toList.map some = pad inner (sel (some k) (rowsFor L R c)) := by
          intro c r hp
          have hlt := partner_lt hR hp
          have hne := rowsOf_ne_nil hR r hlt
          have hs : ¬ sel (some k) (rowsOf R.ikey (r + 1)) = [] := by rwa [sel_eq_nil]
          rw [keepRows_getElem? hR k r hlt]
          simp only [rowsFor, hp, pad, hs, if_false]
          cases hh : sel (some k) (rowsOf R.ikey (r + 1)) with
          | nil => exact absurd hh hs
          | cons a l =>
            have hl : l = [] := by
              cases k
              · cases hx : rowsOf R.ikey (r + 1) <;> simp [sel, hx] at hh; exact hh.2
              · cases hx : (rowsOf R.ikey (r + 1)).getLast? <;> simp [sel, hx] at hh; exact hh.2
            simp [hl]
        have hnone : ∀ c, partner L R c = none →
            pad inner (sel (some k) (rowsFor L R c)) = if inner then [] else [none] := by
          intro c hp
          have : rowsFor L R c = [] := by simp only [rowsFor, hp]
          simp [pad, (sel_eq_nil _ _).mpr this]
        clear hcs hle hne h0
        cases inner
        · simp only [Bool.false_eq_true, if_false]
          induction cs with
          | nil => rfl
          | cons c cs ih =>
            simp only [List.map_cons, take, List.flatMap_cons] at ih ⊢
            rw [← List.singleton_append, ih]
            congr 1
            cases hp : partner L R c with
            | none => simp [hnone c hp]
            | some r =>
              have := hone c r hp
              have hlt := partner_lt hR hp
              rw [keepRows_getElem? hR k r hlt] at this
              simp only [← this, Option.map_some, Option.bind_some, Nat.add_sub_cancel,
                keepRows_getElem? hR k r hlt]
              rfl
        · simp only [if_true]
          induction cs with
          | nil => rfl
          | cons c cs ih =>
            simp only [List.map_cons, take, List.flatMap_cons] at ih ⊢
            cases hp : partner L R c with
            | none =>
              simp [hnone c hp]
              simpa using ih
            | some r =>
              have := hone c r hp
              have hlt := partner_lt hR hp
              rw [keepRows_getElem? hR k r hlt] at this
              rw [← ih, ← this]
              simp [keepRows_getElem? hR k r hlt]

end
end Verif.Merge
