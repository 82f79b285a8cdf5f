import Verif.GbNumba.Packed
import Verif.GbNumba.PackedSpec
import Verif.Par.Lemmas
import Verif.Merge.Keys
import Verif.Fill.Lemmas

/-! # What the packed machine computes -/
namespace Verif.GbNumba
open Verif.Par Verif.Merge
variable {α ρ K : Type} [DecidableEq K]

theorem ncountgroup_getD (g : Grouping K) (c : Nat) (h : c ≤ g.gbkeys.length) : g.ncountgroup.getD c 0 = (rowsOf g.ikey c).length := by
  simp [Grouping.ncountgroup, List.getElem?_range (show c < g.gbkeys.length + 1 by omega)]

theorem groupOrder_eq (g : Grouping K) (fwd : Bool) (c : Nat) (h : c ≤ g.gbkeys.length) :
    groupOrder g fwd c = if fwd then rowsOf g.ikey c else (rowsOf g.ikey c).reverse := by
  have key : (List.range' (g.ifirstgroup.getD c 0) (g.ncountgroup.getD c 0)).map (fun i => g.igroup.getD i 0) = rowsOf g.ikey c := by
    rw [ncountgroup_getD g c h]
    refine List.ext_getElem (by simp) fun i h1 h2 => ?_
    rw [List.getElem_map, List.getElem_range']
    rw [show g.ifirstgroup.getD c 0 + 1 * i = g.ifirstgroup.getD c 0 + i by omega]
    exact igroup_getD g c i h (by simpa using h2)
  unfold groupOrder
  dsimp only
  cases fwd
  · rw [if_neg (by simp), if_neg (by simp), List.map_reverse, key]
  · rw [if_pos rfl, if_pos rfl, key]

theorem rowsOf_nodup (ikey : List Nat) (c : Nat) : (rowsOf ikey c).Nodup := (List.nodup_range).filter _

theorem mem_groupOrder (g : Grouping K) (fwd : Bool) (c : Nat) (h : c ≤ g.gbkeys.length) (r : Nat) :
    r ∈ groupOrder g fwd c ↔ g.ikey[r]? = some c := by
  rw [groupOrder_eq g fwd c h, ← mem_rowsOf]
  cases fwd <;> simp

theorem groupOrder_nodup (g : Grouping K) (fwd : Bool) (c : Nat) (h : c ≤ g.gbkeys.length) : (groupOrder g fwd c).Nodup := by
  rw [groupOrder_eq g fwd c h]
  cases fwd
  · simpa using rowsOf_nodup g.ikey c
  · simpa using rowsOf_nodup g.ikey c

/-- local variables run over a list of rows with their values; outputs -/
def scanVals (f : Nat → ρ → α → ρ) (out : ρ → α) : ρ → List (Nat × α) → List α
  | _, [] => []
  | s, p :: l => out (f p.1 s p.2) :: scanVals f out (f p.1 s p.2) l

theorem solo_other (acts : List (Act α ρ)) : ∀ (s : List α × ρ) (c : Nat), (∀ a ∈ acts, a.cell ≠ c) → (solo s acts).1[c]? = s.1[c]? := by
  induction acts with
  | nil => intro s c _; rfl
  | cons a acts ih =>
    intro s c h
    show (solo (access s a) acts).1[c]? = _
    rw [ih _ c fun x hx => h x (by simp [hx]), access_other s a c (h a (by simp))]

theorem solo_scan (n off : Nat) (hoff : off = 0 ∨ off = n) (f : Nat → ρ → α → ρ) (out : ρ → α) (d : α) (order : List Nat) :
    ∀ (m : List α) (s : ρ), off + n ≤ m.length → order.Nodup → (∀ r ∈ order, r < n) →
    order.map (fun r => (solo (m, s) (scanProg off f out order)).1.getD (off + r) d) =
      scanVals f out s (order.map fun r => (r, m.getD r d)) := by
  induction order with
  | nil => intro m s _ _ _; rfl
  | cons r order ih =>
    intro m s hm hnd hlt
    have hr := hlt r (by simp)
    have hnr := (List.nodup_cons.mp hnd).1
    have hl : ∃ v, m[r]? = some v := ⟨m[r]'(by omega), List.getElem?_eq_getElem (by omega)⟩
    obtain ⟨v, hv⟩ := hl
    have hgd : m.getD r d = v := by simp [hv]
    have e : solo (m, s) (scanProg off f out (r :: order)) =
        solo (m.set (off + r) (out (f r s v)), f r s v) (scanProg off f out order) := by
      show solo (m, s) ([Act.load r (f r), Act.store (off + r) out] ++ scanProg off f out order) = _
      rw [solo_append]
      simp only [solo, List.foldl_cons, List.foldl_nil, access, hv]
    rw [e, List.map_cons, List.map_cons, scanVals, hgd]
    congr 1
    · rw [List.getD_eq_getElem?_getD, solo_other]
      · simp [show off + r < m.length by omega]
      · intro a ha
        obtain ⟨r', hr', ha'⟩ := List.mem_flatMap.mp ha
        have h1 := hlt r' (by simp [hr'])
        have h2 : r' ≠ r := fun e => hnr (e ▸ hr')
        simp only [List.mem_cons, List.not_mem_nil, or_false] at ha'
        rcases ha' with rfl | rfl
        · show r' ≠ off + r; omega
        · show off + r' ≠ off + r; omega
    · rw [ih _ _ (by simpa using hm) (List.nodup_cons.mp hnd).2 fun r' h' => hlt r' (by simp [h'])]
      congr 1
      refine List.map_congr_left fun r' h' => ?_
      have h1 := hlt r' (by simp [h'])
      have h2 : r' ≠ r := fun e => hnr (e ▸ h')
      have : off + r ≠ r' := by omega
      simp [List.getElem?_set, this]

theorem scanProg_cells (off : Nat) (f : Nat → ρ → α → ρ) (out : ρ → α) (order : List Nat) :
    ∀ a ∈ scanProg off f out order, ∃ r ∈ order, a.cell = r ∨ a.cell = off + r := by
  intro a ha
  obtain ⟨r, hr, ha'⟩ := List.mem_flatMap.mp ha
  simp only [List.mem_cons, List.not_mem_nil, or_false] at ha'
  rcases ha' with rfl | rfl
  · exact ⟨r, hr, .inl rfl⟩
  · exact ⟨r, hr, .inr rfl⟩

/-- a cell nobody stores to keeps its content -/
theorem step_unstored (m : Mach α ρ) (t c : Nat)
    (h : ∀ th ∈ m.threads, ∀ (c' : Nat) (g : ρ → α), Act.store c' g ∈ th.todo → c' ≠ c) :
    (stepThread m t).mem[c]? = m.mem[c]? ∧
    ∀ th ∈ (stepThread m t).threads, ∀ (c' : Nat) (g : ρ → α), Act.store c' g ∈ th.todo → c' ≠ c := by
  unfold stepThread
  split
  · rename_i r a rest ht
    have hmem := List.mem_of_getElem? ht
    refine ⟨?_, ?_⟩
    · cases a with
      | load c' f => dsimp only; rw [load_mem]
      | store c' f => exact access_other _ _ _ (h _ hmem c' f (by simp))
    · intro th hth c' g hg
      rcases List.mem_or_eq_of_mem_set hth with h' | h'
      · exact h th h' c' g hg
      · subst h'
        exact h _ hmem c' g (by simp [show Act.store c' g ∈ rest from hg])
  · exact ⟨rfl, h⟩

theorem run_unstored (sched : List Nat) : ∀ (m : Mach α ρ) (c : Nat),
    (∀ th ∈ m.threads, ∀ (c' : Nat) (g : ρ → α), Act.store c' g ∈ th.todo → c' ≠ c) →
    (runSched m sched).mem[c]? = m.mem[c]? := by
  induction sched with
  | nil => intro m c _; rfl
  | cons t sched ih =>
    intro m c h
    obtain ⟨h1, h2⟩ := step_unstored m t c h
    exact (ih (stepThread m t) c h2).trans h1

section packed
variable (g : Grouping K) (fwd : Bool) (base : Nat) (f : Nat → ρ → α → ρ) (out : ρ → α) (init : Nat → ρ) (off : Nat) (mem : List α)

theorem launchPacked_thread (t : Nat) (th : Thread α ρ) : (launchPacked g fwd base f out init off mem).threads[t]? = some th ↔
    base + t ≤ g.gbkeys.length ∧ th = ⟨init (base + t), scanProg off f out (groupOrder g fwd (base + t))⟩ := by
  unfold launchPacked
  dsimp only
  rw [List.getElem?_map]
  by_cases h : t < g.gbkeys.length + 1 - base
  · rw [List.getElem?_range' h]
    simp only [Option.map_some, Option.some.injEq]
    rw [show base + 1 * t = base + t by omega]
    constructor
    · intro e; exact ⟨by omega, e.symm⟩
    · intro e; exact e.2.symm
  · rw [List.getElem?_eq_none (by simpa using h)]
    simp
    omega

/-- cells of group `base + t` -/
def ownPacked (t c : Nat) : Prop := ∃ r, g.ikey[r]? = some (base + t) ∧ (c = r ∨ c = off + r)

theorem packed_separate (hoff : off = 0 ∨ off = g.ikey.length) :
    Separate (ownPacked g base off) (launchPacked g fwd base f out init off mem) := by
  constructor
  · intro t th ht a ha
    obtain ⟨h1, rfl⟩ := (launchPacked_thread g fwd base f out init off mem t th).mp ht
    obtain ⟨r, hr, hc⟩ := scanProg_cells off f out _ a ha
    exact ⟨r, (mem_groupOrder g fwd _ h1 r).mp hr, hc⟩
  · rintro t t' c ⟨r, hr, h1⟩ ⟨r', hr', h2⟩
    have l1 := (List.getElem?_eq_some_iff.mp hr).1
    have l2 := (List.getElem?_eq_some_iff.mp hr').1
    have : r = r' := by omega
    subst this
    rw [hr] at hr'
    have := Option.some.inj hr'
    omega

/-- result of a group under every complete schedule -/
theorem packed_result (hoff : off = 0 ∨ off = g.ikey.length) (hm : off + g.ikey.length ≤ mem.length) (d : α) (sched : List Nat)
    (hd : Done (runSched (launchPacked g fwd base f out init off mem) sched)) (c : Nat) (h1 : base ≤ c) (h2 : c ≤ g.gbkeys.length) :
    (groupOrder g fwd c).map (fun r => (runSched (launchPacked g fwd base f out init off mem) sched).mem.getD (off + r) d) =
      scanVals f out (init c) ((groupOrder g fwd c).map fun r => (r, mem.getD r d)) := by
  have hs := packed_separate g fwd base f out init off mem hoff
  rw [← solo_scan g.ikey.length off hoff f out d (groupOrder g fwd c) mem (init c) hm (groupOrder_nodup g fwd c h2)
    fun r hr => (List.getElem?_eq_some_iff.mp ((mem_groupOrder g fwd c h2 r).mp hr)).1]
  refine List.map_congr_left fun r hr => ?_
  have ht : (launchPacked g fwd base f out init off mem).threads[c - base]? =
      some ⟨init c, scanProg off f out (groupOrder g fwd c)⟩ := by
    rw [launchPacked_thread, show base + (c - base) = c by omega]
    exact ⟨h2, rfl⟩
  rw [List.getD_eq_getElem?_getD, List.getD_eq_getElem?_getD,
    race_free _ hs sched hd (c - base) (off + r) ⟨r, by
      rw [show base + (c - base) = c by omega]; exact (mem_groupOrder g fwd c h2 r).mp hr, .inr rfl⟩ _ ht]
  rfl

/-- rows outside the groups that are worked on -/
theorem packed_untouched (sched : List Nat) (c : Nat) (h : ∀ r k, g.ikey[r]? = some k → base ≤ k → k ≤ g.gbkeys.length → off + r ≠ c) :
    (runSched (launchPacked g fwd base f out init off mem) sched).mem[c]? = mem[c]? := by
  refine run_unstored sched _ c fun th hth c' g' hst => ?_
  obtain ⟨t, ht, he⟩ := List.getElem_of_mem hth
  obtain ⟨h1, rfl⟩ := (launchPacked_thread g fwd base f out init off mem t th).mp (by rw [List.getElem?_eq_getElem ht, he])
  obtain ⟨r, hr, ha⟩ := List.mem_flatMap.mp hst
  simp only [List.mem_cons, List.not_mem_nil, or_false, reduceCtorEq, false_or, Act.store.injEq] at ha
  rw [ha.1]
  exact h r _ ((mem_groupOrder g fwd _ h1 r).mp hr) (by omega) h1

theorem packed_length (hoff : off = 0 ∨ off = g.ikey.length) (sched : List Nat) :
    (runSched (launchPacked g fwd base f out init off mem) sched).mem.length = mem.length :=
  (runSched_spec sched _ (packed_separate g fwd base f out init off mem hoff)).2.2.1

end packed

theorem groupVals_eq_rows (ikey : List Nat) (data : List α) (h : data.length = ikey.length) (d : α) (c : Nat) :
    groupVals ikey data c = (rowsOf ikey c).map fun r => data.getD r d := by
  have hz : ikey.zip data = (List.range ikey.length).map fun i => (ikey.getD i 0, data.getD i d) := by
    refine List.ext_getElem (by simp [h]) fun i h1 h2 => ?_
    simp only [List.length_zip, h, Nat.min_self] at h1
    have h3 : i < data.length := by omega
    simp [h1, h3]
  unfold groupVals rowsOf
  rw [hz, List.filter_map, List.map_map]
  congr 1
  refine List.filter_congr fun i hi => ?_
  have := List.mem_range.mp hi
  simp [this]
  by_cases h : ikey[i] = c <;> simp [h]

theorem scan_fill (isInv : α → Bool) (limit : Int) : ∀ (l : List (Nat × α)) (last : α) (c : Int) (o : α) (d : Nat),
    (0 < limit → c = max (limit - d) 0) →
    scanVals (fun _ => fillStep isInv limit) FillReg.out ⟨last, c, o⟩ l = Fill.run isInv limit last d (l.map Prod.snd)
  | [], _, _, _, _, _ => rfl
  | (k, x) :: l, last, c, o, d, hc => by
    rw [List.map_cons, scanVals, Fill.run]
    dsimp only
    by_cases hl : limit ≤ 0
    · by_cases hx : isInv x = true
      · have e : fillStep isInv limit ⟨last, c, o⟩ x = ⟨last, c, last⟩ := by simp [fillStep, hl, hx]
        rw [e, scan_fill isInv limit l last c last (d + 1) (by omega)]
        simp [hx, hl]
      · have e : fillStep isInv limit ⟨last, c, o⟩ x = ⟨x, c, x⟩ := by simp [fillStep, hl, hx]
        rw [e, scan_fill isInv limit l x c x 0 (by omega)]
        simp [hx]
    · have hc' := hc (by omega)
      by_cases hx : isInv x = true
      · by_cases h0 : c > 0
        · have e : fillStep isInv limit ⟨last, c, o⟩ x = ⟨last, c - 1, last⟩ := by simp [fillStep, hl, hx, h0]
          rw [e, scan_fill isInv limit l last (c - 1) last (d + 1) (by omega)]
          have : (d : Int) < limit := by omega
          simp [hx, this]
        · have e : fillStep isInv limit ⟨last, c, o⟩ x = ⟨last, c, x⟩ := by simp [fillStep, hl, hx, h0]
          rw [e, scan_fill isInv limit l last c x (d + 1) (by omega)]
          have : ¬ (d : Int) < limit := by omega
          simp [hx, this, hl]
      · have e : fillStep isInv limit ⟨last, c, o⟩ x = ⟨x, limit, x⟩ := by simp [fillStep, hl, hx]
        rw [e, scan_fill isInv limit l x limit x 0 (by omega)]
        simp [hx]

theorem resultArray_getD (m : Mach α ρ) (off n r : Nat) (d : α) (h : r < n) : (resultArray m off n).getD r d = m.mem.getD (off + r) d := by
  simp [resultArray, List.getElem?_take, h]

end Verif.GbNumba
