import Verif.GbNumba.PackedLemmas
import Mathlib.Tactic.Ring
import Mathlib.Tactic.Abel
import Mathlib.Tactic.NormNum
import Mathlib.Data.Rat.Init
import Mathlib.Algebra.Field.Rat
import Mathlib.Algebra.BigOperators.Ring.List

/-! # C41, C42: grouped fill and grouped EMA -/
namespace Verif.GbNumba
open Verif.Par Verif.Merge
variable {α ρ K : Type} [DecidableEq K]

theorem result_order (g : Grouping K) (fwd : Bool) (base : Nat) (f : Nat → ρ → α → ρ) (out : ρ → α) (init : Nat → ρ) (off : Nat)
    (mem : List α) (hoff : off = 0 ∨ off = g.ikey.length) (hm : off + g.ikey.length ≤ mem.length) (d : α) (sched : List Nat)
    (hd : Done (runSched (launchPacked g fwd base f out init off mem) sched)) (c : Nat) (h1 : base ≤ c) (h2 : c ≤ g.gbkeys.length) :
    let l := groupVals g.ikey (resultArray (runSched (launchPacked g fwd base f out init off mem) sched) off g.ikey.length) c
    (if fwd then l else l.reverse) = scanVals f out (init c) ((groupOrder g fwd c).map fun r => (r, mem.getD r d)) := by
  intro l
  have hlen : (resultArray (runSched (launchPacked g fwd base f out init off mem) sched) off g.ikey.length).length = g.ikey.length := by
    unfold resultArray
    rw [List.length_take, List.length_drop, packed_length g fwd base f out init off mem hoff]
    omega
  have hl : l = (rowsOf g.ikey c).map fun r => (runSched (launchPacked g fwd base f out init off mem) sched).mem.getD (off + r) d := by
    show groupVals _ _ _ = _
    rw [groupVals_eq_rows _ _ hlen d]
    refine List.map_congr_left fun r hr => resultArray_getD _ _ _ _ _ ?_
    exact (List.getElem?_eq_some_iff.mp ((mem_rowsOf _ _ _).mp hr)).1
  rw [← packed_result g fwd base f out init off mem hoff hm d sched hd c h1 h2, hl, groupOrder_eq g fwd c h2]
  cases fwd
  · simp
  · simp

/-- **C41**: a grouped fill fills every group separately, forward or backward, with the
same meaning as the plain fills, in place or not, under every interleaving of the
groups' threads; when not in place the input is left alone. -/
theorem grouped_fill_correct (g : Grouping K) (fwd : Bool) (base : Nat) (isInv : α → Bool) (inv : α) (data ret : List α)
    (fillVal : Option α) (limit : Option Int) (inplace : Bool) (hlen : data.length = g.ikey.length) (hret : ret.length = data.length)
    (hlim : 0 ≤ limit.getD 0) :
    ∃ m off, fillBackend g fwd base true isInv inv data ret fillVal limit inplace = .ok (m, off) ∧
      (∃ sched, Done (runSched m sched)) ∧
      ∀ sched, Done (runSched m sched) →
        (resultArray (runSched m sched) off data.length).length = data.length ∧
        GroupFilled isInv (fillVal.getD inv) (limit.getD 0) fwd g.ikey base g.gbkeys.length data
          (resultArray (runSched m sched) off data.length) ∧
        (inplace = false → (runSched m sched).mem.take data.length = data) := by
  unfold fillBackend
  rw [if_neg (by simp)]
  dsimp only
  rw [if_neg (by omega)]
  refine ⟨_, _, rfl, exists_schedule _, fun sched hd => ?_⟩
  have hoff : (if inplace = true then 0 else data.length) = 0 ∨ (if inplace = true then 0 else data.length) = g.ikey.length := by
    cases inplace <;> simp [hlen]
  have hm : (if inplace = true then 0 else data.length) + g.ikey.length ≤ (if inplace = true then data else data ++ ret).length := by
    cases inplace <;> simp <;> omega
  have hfst : ∀ r, r < g.ikey.length → (if inplace = true then data else data ++ ret)[r]? = data[r]? := by
    intro r hr
    cases inplace
    · simp [List.getElem?_append, show r < data.length by omega]
    · simp
  generalize hoffe : (if inplace = true then 0 else data.length) = off at *
  generalize hmeme : (if inplace = true then data else data ++ ret) = mem at *
  refine ⟨?_, ?_, ?_⟩
  · unfold resultArray
    rw [List.length_take, List.length_drop, packed_length g fwd base _ _ _ off mem hoff]
    omega
  · intro c h1 h2
    have hvals : ∀ d : α, (groupVals g.ikey data c) = (rowsOf g.ikey c).map fun r => mem.getD r d := by
      intro d
      rw [groupVals_eq_rows _ _ hlen d]
      refine List.map_congr_left fun r hr => ?_
      rw [List.getD_eq_getElem?_getD, List.getD_eq_getElem?_getD,
        hfst r (List.getElem?_eq_some_iff.mp ((mem_rowsOf _ _ _).mp hr)).1]
    have key := result_order g fwd base (fun _ => fillStep isInv (limit.getD 0)) FillReg.out
      (fun _ => ⟨fillVal.getD inv, limit.getD 0, fillVal.getD inv⟩) off mem hoff hm inv sched hd c h1 h2
    dsimp only at key
    rw [scan_fill isInv (limit.getD 0) _ _ _ _ 0 (by omega), ← hlen] at key
    have hmap : ((groupOrder g fwd c).map fun r => (r, mem.getD r inv)).map Prod.snd =
        if fwd then groupVals g.ikey data c else (groupVals g.ikey data c).reverse := by
      rw [List.map_map, groupOrder_eq g fwd c h2, hvals inv]
      cases fwd
      · simp
      · simp
    rw [hmap] at key
    cases fwd
    · simp only [Bool.false_eq_true, if_false] at key ⊢
      rw [key]
      exact Fill.run_filledFrom ..
    · simp only [if_true] at key ⊢
      rw [key]
      exact Fill.run_filledFrom ..
  · intro hi
    subst hi
    rw [if_neg (by simp)] at hmeme hoffe
    apply List.ext_getElem?
    intro r
    rw [List.getElem?_take]
    by_cases hr : r < data.length
    · rw [if_pos hr, packed_untouched _ _ _ _ _ _ _ _ _ _ fun r' k _ _ _ => by omega, hfst r (by omega)]
    · rw [if_neg hr, List.getElem?_eq_none (by omega)]

/-- unsupported columns and negative limits are rejected -/
theorem grouped_fill_rejects (g : Grouping K) (fwd : Bool) (base : Nat) (supported : Bool) (isInv : α → Bool) (inv : α) (data ret : List α)
    (fillVal : Option α) (limit : Option Int) (inplace : Bool) (h : supported = false ∨ limit.getD 0 < 0) :
    ∃ e, fillBackend g fwd base supported isInv inv data ret fillVal limit inplace = .error e := by
  unfold fillBackend
  cases supported
  · exact ⟨_, rfl⟩
  · rw [if_neg (by simp)]
    dsimp only
    rw [if_pos (by simpa using h)]
    exact ⟨_, rfl⟩

/-- Rows of a bin below `base` — the filtered rows, since the caller passes `base = 1`
(`rt_grouping.py:3319-3323`) — are never written: in place they keep their value, otherwise
they show whatever the freshly allocated result contained. -/
theorem grouped_fill_skipped_rows (g : Grouping K) (fwd : Bool) (base : Nat) (isInv : α → Bool) (inv : α) (data ret : List α)
    (fillVal : Option α) (limit : Option Int) (inplace : Bool) (hlen : data.length = g.ikey.length) (m : Mach α (FillReg α))
    (off : Nat) (hok : fillBackend g fwd base true isInv inv data ret fillVal limit inplace = .ok (m, off)) (sched : List Nat)
    (r k : Nat) (hr : g.ikey[r]? = some k) (hk : k < base) :
    (resultArray (runSched m sched) off data.length)[r]? = if inplace then data[r]? else ret[r]? := by
  have hrl := (List.getElem?_eq_some_iff.mp hr).1
  unfold fillBackend at hok
  rw [if_neg (by simp)] at hok
  dsimp only at hok
  split at hok
  · simp at hok
  · simp only [Except.ok.injEq, Prod.mk.injEq] at hok
    obtain ⟨rfl, rfl⟩ := hok
    unfold resultArray
    rw [List.getElem?_take, if_pos (by omega), List.getElem?_drop, packed_untouched]
    · cases inplace
      · simp [List.getElem?_append]
      · simp
    · intro r' k' h' hb _ e
      have : r' = r := by omega
      subst this
      rw [hr] at h'
      have := Option.some.inj h'
      omega

/-- So the claim "every row of the result is the filled value or the row's own value"
fails for filtered rows: the result contains uninitialised memory. -/
theorem grouped_fill_filtered_counterexample (junk : Int) : ∃ (g : Grouping Nat) (data ret : List Int) (m : Mach Int (FillReg Int)) (off : Nat),
    fillBackend g true 1 true (fun x => x == -1) (-1) data ret none none false = .ok (m, off) ∧
    g.ikey = [0, 1, 1] ∧ data = [5, 6, -1] ∧
    ∀ sched, (resultArray (runSched m sched) off data.length)[0]? = some junk := by
  refine ⟨⟨[0, 1, 1], [7]⟩, [5, 6, -1], [junk, junk, junk], _, _, rfl, rfl, rfl, fun sched => ?_⟩
  exact grouped_fill_skipped_rows ⟨[0, 1, 1], [7]⟩ true 1 (fun x => x == -1) (-1) [5, 6, -1] [junk, junk, junk] none none false rfl _ _ rfl
    sched 0 0 rfl (by omega)

/-- two groups, interleaved rows, limit 1, not in place -/
example : ∃ m off, fillBackend (⟨[1, 2, 1, 2, 1, 2, 1], [7, 8]⟩ : Grouping Nat) true 1 true (fun x => x == -1) (-1)
    [3, -1, -1, 4, -1, -1, 9] [0, 0, 0, 0, 0, 0, 0] (some 50) (some 1) false = .ok (m, off) ∧
    resultArray (runSched m ((List.replicate 8 [0, 1]).flatten)) off 7 = [3, 50, 3, 4, -1, 4, (9 : Int)] :=
  ⟨_, _, rfl, by decide⟩

section ema
variable {R T : Type} [CommRing R] [AddCommGroup T]

theorem scan_ema (E : T → R) (hE0 : E 0 = 1) (hE : ∀ a b, E (a + b) = E a * E b) (time : List T) (t0 : T) :
    ∀ (l : List (Nat × R)) (s : EmaReg R T) (pre : List (R × T)), s.lastEma = (pre.map fun p => p.1 * E (s.lastTime - p.2)).sum →
    ∀ (i : Nat) (p : Nat × R), l[i]? = some p →
      (scanVals (emaStep E time t0) EmaReg.lastEma s l)[i]? =
        some (((pre ++ (l.map fun q => (q.2, time.getD q.1 t0)).take (i + 1)).map fun q => q.1 * E (time.getD p.1 t0 - q.2)).sum) := by
  intro l
  induction l with
  | nil => intro s pre _ i p h; simp at h
  | cons q l ih =>
    intro s pre hs i p hp
    have hstep : (emaStep E time t0 q.1 s q.2).lastEma =
        ((pre ++ [(q.2, time.getD q.1 t0)]).map fun x => x.1 * E ((emaStep E time t0 q.1 s q.2).lastTime - x.2)).sum := by
      simp only [emaStep, List.map_append, List.map_cons, List.map_nil, List.sum_append, List.sum_cons, List.sum_nil, sub_self, hE0, mul_one,
        add_zero]
      rw [add_comm, hs, ← List.sum_map_mul_right]
      congr 2
      refine List.map_congr_left fun x _ => ?_
      rw [mul_assoc, ← hE]
      congr 2
      abel
    rw [scanVals]
    cases i with
    | zero =>
      simp only [List.getElem?_cons_zero, Option.some.injEq] at hp
      subst hp
      rw [List.getElem?_cons_zero, hstep]
      simp [emaStep]
    | succ i =>
      rw [List.getElem?_cons_succ] at hp ⊢
      rw [ih _ _ hstep i p hp]
      simp

/-- **C42**: the grouped EMA gives each row of a group the sum of the group's values up to
and including that row, each weighted with the decay over its age; under every
interleaving, and without touching the input.  `E` is any exponential. -/
theorem grouped_ema_correct (g : Grouping K) (base : Nat) (E : T → R) (hE0 : E 0 = 1) (hE : ∀ a b, E (a + b) = E a * E b) (time : List T)
    (t0 : T) (data ret : List R) (hlen : data.length = g.ikey.length) (htime : time.length = g.ikey.length)
    (hret : ret.length = data.length) (sched : List Nat) (hd : Done (runSched (emaLaunch g base E time t0 data ret) sched))
    (c : Nat) (h1 : base ≤ c) (h2 : c ≤ g.gbkeys.length) :
    (groupVals g.ikey (resultArray (runSched (emaLaunch g base E time t0 data ret) sched) data.length data.length) c).length =
      (groupVals g.ikey data c).length ∧
    ∀ (i : Nat) (t : T), (groupVals g.ikey time c)[i]? = some t →
      (groupVals g.ikey (resultArray (runSched (emaLaunch g base E time t0 data ret) sched) data.length data.length) c)[i]? =
        some (decayedSum E (groupVals g.ikey data c) (groupVals g.ikey time c) i t) := by
  have hm : data.length + g.ikey.length ≤ (data ++ ret).length := by simp; omega
  have key := result_order g true base (emaStep E time t0) EmaReg.lastEma
      (fun c => ⟨0, time.getD (g.igroup.getD (g.ifirstgroup.getD c 0) 0) t0⟩) data.length (data ++ ret) (.inr hlen) hm 0 sched hd c h1 h2
  simp only [if_true] at key
  have hrun : launchPacked g true base (emaStep E time t0) EmaReg.lastEma
      (fun c => ⟨0, time.getD (g.igroup.getD (g.ifirstgroup.getD c 0) 0) t0⟩) data.length (data ++ ret) = emaLaunch g base E time t0 data ret := rfl
  rw [hrun, ← hlen] at key
  rw [key]
  have hrows : groupOrder g true c = rowsOf g.ikey c := by rw [groupOrder_eq g true c h2]; rfl
  rw [hrows]
  have hlt : ∀ r ∈ rowsOf g.ikey c, r < g.ikey.length := fun r hr => (List.getElem?_eq_some_iff.mp ((mem_rowsOf _ _ _).mp hr)).1
  have hd1 : (rowsOf g.ikey c).map (fun r => (r, (data ++ ret).getD r 0)) = (rowsOf g.ikey c).map fun r => (r, data.getD r 0) := by
    refine List.map_congr_left fun r hr => ?_
    have := hlt r hr
    simp [List.getElem?_append, show r < data.length by omega]
  rw [hd1, groupVals_eq_rows _ data hlen 0, groupVals_eq_rows _ time htime t0]
  refine ⟨?_, ?_⟩
  · have : ∀ (l : List (Nat × R)) (s : EmaReg R T), (scanVals (emaStep E time t0) EmaReg.lastEma s l).length = l.length := by
      intro l
      induction l with
      | nil => intro s; rfl
      | cons x l ih => intro s; simp [scanVals, ih]
    rw [this]
    simp
  · intro i t ht
    rw [List.getElem?_map] at ht
    cases hr : (rowsOf g.ikey c)[i]? with
    | none => rw [hr] at ht; simp at ht
    | some r =>
      rw [hr] at ht
      simp only [Option.map_some, Option.some.injEq] at ht
      rw [scan_ema E hE0 hE time t0 _ _ [] (by simp) i (r, data.getD r 0) (by simp [hr])]
      simp only [List.nil_append, List.map_map]
      rw [decayedSum, List.zip_map', ← ht]
      rfl

/-- non-vacuity: halving per time step is such an exponential -/
example : ((1 / 2 : ℚ) ^ (0 : ℤ) = 1) ∧ ∀ a b : ℤ, (1 / 2 : ℚ) ^ (a + b) = (1 / 2) ^ a * (1 / 2) ^ b :=
  ⟨zpow_zero _, fun _ _ => zpow_add₀ (by norm_num) _ _⟩

/-- and two groups with interleaved rows give the decayed sums -/
example : resultArray (runSched (emaLaunch (⟨[1, 2, 1], [7, 8]⟩ : Grouping Nat) 1 (fun d : ℤ => (1 / 2 : ℚ) ^ d) [0, 5, 2] 0 [4, 3, 8] [0, 0, 0])
    [0, 1, 0, 1, 0, 0]) 3 3 = [4, 3, 9] := by
  simp [resultArray, emaLaunch, launchPacked, runSched, stepThread, scanProg, groupOrder, access, emaStep, Grouping.ifirstgroup,
    Grouping.ncountgroup, Grouping.igroup, rowsOf, List.range, List.range.loop, List.range']
  norm_num

end ema

/-- `iGroup[start]` is read before the loop even for an empty group; for an empty last
group `start` is past the end of `iGroup`. -/
theorem ema_empty_group_counterexample : ∃ g : Grouping Nat, g.ncountgroup = [0, 2, 0] ∧ g.ifirstgroup.getD 2 0 = g.igroup.length :=
  ⟨⟨[1, 1], [7, 8]⟩, by decide, by decide⟩

end Verif.GbNumba
