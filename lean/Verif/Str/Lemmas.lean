import Verif.Str.Model
import Verif.Str.Spec
import Verif.Par.Lemmas
/-! Stores of a row and what a kernel leaves in a row. -/
namespace Verif.Str
open Verif.Par Verif.Str.Spec

variable {β : Type}

/-- stores one after the other -/
def stores (l : List (Nat × β)) (d : List β) : List β := l.foldl (fun d s => d.set s.1 s.2) d

@[simp] theorem stores_length (l : List (Nat × β)) : ∀ d : List β, (stores l d).length = d.length := by
  induction l with
  | nil => intro d; rfl
  | cons s l ih => intro d; rw [stores, List.foldl_cons]; exact (ih _).trans (by simp)

theorem stores_cons (s : Nat × β) (l : List (Nat × β)) (d : List β) : stores (s :: l) d = stores l (d.set s.1 s.2) := rfl

theorem stores_append (a b : List (Nat × β)) (d : List β) : stores (a ++ b) d = stores b (stores a d) := by
  simp [stores, List.foldl_append]

theorem stores_other (l : List (Nat × β)) (c : Nat) : ∀ d : List β, (∀ s ∈ l, s.1 ≠ c) → (stores l d)[c]? = d[c]? := by
  induction l with
  | nil => intro d _; rfl
  | cons s l ih =>
    intro d h
    rw [stores_cons, ih _ (fun s' hs' => h s' (by simp [hs']))]
    exact List.getElem?_set_ne (h s (by simp))

/-- if all stores to a cell agree, that is its value -/
theorem stores_same (l : List (Nat × β)) (c : Nat) (v : β) : ∀ d : List β, (∀ s ∈ l, s.1 = c → s.2 = v) →
    (∃ s ∈ l, s.1 = c) → c < d.length → (stores l d)[c]? = some v := by
  induction l with
  | nil => intro d _ h; simp at h
  | cons s l ih =>
    intro d h he hc
    rw [stores_cons]
    by_cases hl : ∃ s ∈ l, s.1 = c
    · exact ih _ (fun s' hs' => h s' (by simp [hs'])) hl (by simpa using hc)
    · rw [stores_other l c _ (fun s' hs' e => hl ⟨s', hs', e⟩)]
      obtain ⟨s', hs', e⟩ := he
      rcases List.mem_cons.mp hs' with rfl | hm
      · rw [e, h s' (by simp) e]; simp [hc]
      · exact absurd ⟨s', hm, e⟩ hl

theorem solo_stores (l : List (Nat × β)) : ∀ d : List β,
    (solo (d, ()) (l.map fun s => Act.store s.1 (fun _ => s.2))).1 = stores l d := by
  induction l with
  | nil => intro d; rfl
  | cons s l ih => intro d; simp only [List.map_cons, solo, List.foldl_cons]; exact ih _

/-- every cell of an output array belongs to one iteration: the result there is what this iteration
alone would leave -/
theorem runs_cell {n : Nat} {trace : Nat → List (Nat × β)} {dest out : List β} (own : Nat → Nat → Prop)
    (hr : Runs n trace dest out) (hd : ∀ i j c, own i c → own j c → i = j)
    (ho : ∀ i < n, ∀ s ∈ trace i, own i s.1) :
    out.length = dest.length ∧ ∀ i < n, ∀ c, own i c → out[c]? = (stores (trace i) dest)[c]? := by
  obtain ⟨sched, hdone, rfl⟩ := hr
  have hth : ∀ (t : Nat) (th : Thread β Unit), (kernel n trace dest).threads[t]? = some th →
      t < n ∧ th = ⟨(), (trace t).map fun s => .store s.1 (fun _ => s.2)⟩ := by
    intro t th h
    simp only [kernel, List.getElem?_map, Option.map_eq_some_iff, List.getElem?_range, List.getElem?_eq_some_iff,
      List.length_range, List.getElem_range] at h
    obtain ⟨_, ⟨h1, rfl⟩, h2⟩ := h
    exact ⟨h1, h2.symm⟩
  have hs : Separate (fun t c => own t c) (kernel n trace dest) := by
    refine ⟨fun t th ht a ha => ?_, fun t t' c h1 h2 => hd t t' c h1 h2⟩
    obtain ⟨h1, rfl⟩ := hth t th ht
    simp only [List.mem_map] at ha
    obtain ⟨s, hs, rfl⟩ := ha
    exact ho t h1 s hs
  refine ⟨(runSched_spec sched _ hs).2.2.1, fun i hi c hc => ?_⟩
  rw [race_free _ hs sched hdone i c hc ⟨(), (trace i).map fun s => .store s.1 (fun _ => s.2)⟩ (by simp [kernel, hi])]
  exact congrArg (·[c]?) (solo_stores (trace i) dest)

/-- kernels can always run -/
theorem runs_exists (n : Nat) (trace : Nat → List (Nat × β)) (dest : List β) : ∃ out, Runs n trace dest out := by
  obtain ⟨sched, h⟩ := exists_schedule (kernel n trace dest)
  exact ⟨_, sched, h, rfl⟩

theorem getElem?_row (w i : Nat) (b : List β) (j : Nat) : (row w i b)[j]? = if j < w then b[i * w + j]? else none := by
  rw [row, List.getElem?_take]
  split <;> simp

theorem row_length {w i n : Nat} {b : List β} (hb : b.length = n * w) (hi : i < n) : (row w i b).length = w := by
  have : (i + 1) * w ≤ n * w := Nat.mul_le_mul_right w hi
  rw [Nat.add_mul] at this
  simp only [row, List.length_take, List.length_drop]
  omega

/-- kernels that write rows of width `w` -/
theorem runs_row {n w : Nat} {trace : Nat → List (Nat × β)} {dest out : List β} (hr : Runs n trace dest out)
    (ho : ∀ i < n, ∀ s ∈ trace i, i * w ≤ s.1 ∧ s.1 < i * w + w) :
    out.length = dest.length ∧ ∀ i < n, row w i out = row w i (stores (trace i) dest) := by
  obtain ⟨h1, h2⟩ := runs_cell (fun i c => i * w ≤ c ∧ c < i * w + w) hr (by
    intro i j c ⟨a1, a2⟩ ⟨b1, b2⟩
    rcases Nat.lt_trichotomy i j with h | h | h
    · have : (i + 1) * w ≤ j * w := Nat.mul_le_mul_right w h
      rw [Nat.add_mul] at this; omega
    · exact h
    · have : (j + 1) * w ≤ i * w := Nat.mul_le_mul_right w h
      rw [Nat.add_mul] at this; omega) ho
  refine ⟨h1, fun i hi => List.ext_getElem? fun j => ?_⟩
  rw [getElem?_row, getElem?_row]
  split
  · exact h2 i hi _ ⟨by omega, by omega⟩
  · rfl

/-- kernels with one result per row -/
theorem runs_one {n : Nat} {trace : Nat → List (Nat × β)} {dest out : List β} (hr : Runs n trace dest out)
    (ho : ∀ i < n, ∀ s ∈ trace i, s.1 = i) :
    out.length = dest.length ∧ ∀ i < n, out[i]? = (stores (trace i) dest)[i]? := by
  obtain ⟨h1, h2⟩ := runs_cell (fun i c => c = i) hr (fun i j c h h' => h.symm.trans h') ho
  exact ⟨h1, fun i hi => h2 i hi i rfl⟩

/-- the row a kernel leaves, when its stores are consistent with `R` and cover the row -/
theorem row_stores {w n i : Nat} {dest : List β} {l : List (Nat × β)} {R : List β} (hdest : dest.length = n * w)
    (hi : i < n) (hR : R.length = w)
    (hv : ∀ s ∈ l, ∃ j, s.1 = i * w + j ∧ R[j]? = some s.2) (hc : ∀ j < w, ∃ s ∈ l, s.1 = i * w + j) :
    row w i (stores l dest) = R := by
  have hle : (i + 1) * w ≤ n * w := Nat.mul_le_mul_right w hi
  rw [Nat.add_mul] at hle
  refine List.ext_getElem? fun j => ?_
  rw [getElem?_row]
  split
  · rename_i hj
    have hjR : j < R.length := by omega
    rw [List.getElem?_eq_getElem hjR]
    refine stores_same l _ _ dest (fun s hs e => ?_) (hc j hj) (by omega)
    obtain ⟨j', h1, h2⟩ := hv s hs
    have : j' = j := by omega
    subst this
    rw [List.getElem?_eq_getElem hjR] at h2
    exact (Option.some.inj h2).symm
  · rw [List.getElem?_eq_none (by omega)]

/-- reading a cell of a row -/
theorem rd_row (src : Buf) (w i j : Nat) (hj : j < w) : rd src (i * w + j) = (row w i src).getD j 0 := by
  rw [rd, List.getD_eq_getElem?_getD, List.getD_eq_getElem?_getD, getElem?_row, if_pos hj]

theorem row_getElem? {src : Buf} {w i n : Nat} (hs : src.length = n * w) (hi : i < n) {j : Nat} (hj : j < w) :
    (row w i src)[j]? = some (rd src (i * w + j)) := by
  have := row_length hs hi
  rw [rd_row src w i j hj, List.getD_eq_getElem?_getD, List.getElem?_eq_getElem (by omega)]; rfl

/-! ## padding -/

theorem decode_append_zeros (s : List Nat) (k : Nat) : decode (s ++ List.replicate k 0) = decode s := by
  induction k with
  | zero => simp
  | succ k ih => rw [List.replicate_succ', ← List.append_assoc, decode, List.rdropWhile_concat_pos _ _ _ (by simp)]; exact ih

/-- a field is its string followed by zeros -/
theorem decode_spec (f : List Nat) : ∃ k, f = decode f ++ List.replicate k 0 := by
  induction f using List.reverseRecOn with
  | nil => exact ⟨0, rfl⟩
  | append_singleton f c ih =>
    by_cases hc : c = 0
    · obtain ⟨k, hk⟩ := ih
      refine ⟨k + 1, ?_⟩
      have : decode (f ++ [c]) = decode f := by rw [decode, List.rdropWhile_concat_pos _ _ _ (by simp [hc])]; rfl
      rw [this, List.replicate_succ', ← List.append_assoc, ← hk, hc]
    · refine ⟨0, ?_⟩
      rw [decode, List.rdropWhile_concat_neg _ _ _ (by simp [hc])]; simp

theorem decode_last (f : List Nat) (h : decode f ≠ []) : (decode f).getLast h ≠ 0 := by
  have := List.rdropWhile_last_not (p := (· == 0)) f h
  exact fun e => this (beq_iff_eq.mpr e)

theorem decode_eq_self {s : List Nat} (h : ∀ h : s ≠ [], s.getLast h ≠ 0) : decode s = s := by
  rw [decode, List.rdropWhile_eq_self_iff]
  intro hl; simpa using h hl

theorem decode_clean_self {s : List Nat} (h : 0 ∉ s) : decode s = s :=
  decode_eq_self fun hl e => h (e ▸ List.getLast_mem hl)

theorem decode_length_le (f : List Nat) : (decode f).length ≤ f.length := by
  obtain ⟨k, hk⟩ := decode_spec f
  have := congrArg List.length hk
  simp only [List.length_append, List.length_replicate] at this
  omega

theorem decode_map (g : Nat → Nat) (hg : ∀ c, g c = 0 ↔ c = 0) (f : List Nat) : decode (f.map g) = (decode f).map g := by
  obtain ⟨k, hk⟩ := decode_spec f
  conv_lhs => rw [hk]
  rw [List.map_append, List.map_replicate, (hg 0).mpr rfl, decode_append_zeros]
  refine decode_eq_self fun h e => ?_
  rw [List.getLast_map] at e
  exact decode_last f (by simpa using h) ((hg _).mp e)

end Verif.Str
