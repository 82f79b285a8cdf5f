import Verif.Par.Machine
import Mathlib.Data.List.Nodup
import Mathlib.Order.Basic

/-! # Threads on disjoint cells do not interfere -/
namespace Verif.Par
variable {β ρ : Type}

/-- a thread running alone -/
def solo (s : List β × ρ) (acts : List (Act β ρ)) : List β × ρ := acts.foldl access s

/-- cell an access touches -/
def Act.cell : Act β ρ → Nat
  | .load c _ => c
  | .store c _ => c

theorem access_length (s : List β × ρ) (a : Act β ρ) : (access s a).1.length = s.1.length := by
  cases a with
  | load c f => simp only [access]; split <;> rfl
  | store c g => simp [access]

theorem access_other (s : List β × ρ) (a : Act β ρ) (c : Nat) (h : a.cell ≠ c) : (access s a).1[c]? = s.1[c]? := by
  cases a with
  | load c' f => simp only [access]; split <;> rfl
  | store c' f =>
    have h' : c' ≠ c := h
    simp [access, List.getElem?_set, h']

theorem load_mem (s : List β × ρ) (c : Nat) (f : ρ → β → ρ) : (access s (.load c f)).1 = s.1 := by
  simp only [access]; split <;> rfl

/-- memories that agree on the cells a thread may touch lead to the same there -/
theorem solo_agree (own : Nat → Prop) (acts : List (Act β ρ)) : ∀ (m m' : List β) (r : ρ), m.length = m'.length →
    (∀ c, own c → m[c]? = m'[c]?) → (∀ a ∈ acts, own a.cell) →
    (∀ c, own c → (solo (m, r) acts).1[c]? = (solo (m', r) acts).1[c]?) := by
  induction acts with
  | nil => intro m m' r _ h _ c hc; exact h c hc
  | cons a acts ih =>
    intro m m' r hl h ha c hc
    have ha0 := ha a (by simp)
    have e2 : (access (m, r) a).2 = (access (m', r) a).2 := by
      cases a with
      | load c' f =>
        have := h c' ha0
        simp only [access]
        cases hm : m[c']? with
        | none => rw [hm] at this; rw [← this]
        | some v => rw [hm] at this; rw [← this]
      | store c' f => rfl
    have e1 : ∀ c, own c → (access (m, r) a).1[c]? = (access (m', r) a).1[c]? := by
      intro c hc
      cases a with
      | load c' f => rw [load_mem, load_mem]; exact h c hc
      | store c' f =>
        simp only [access, List.getElem?_set]
        rw [hl]
        split
        · rfl
        · exact h c hc
    show (solo (access (m, r) a) acts).1[c]? = (solo (access (m', r) a) acts).1[c]?
    have := ih (access (m, r) a).1 (access (m', r) a).1 (access (m, r) a).2
      (by rw [access_length, access_length]; exact hl) e1 (fun x hx => ha x (by simp [hx])) c hc
    rw [show access (m', r) a = ((access (m', r) a).1, (access (m, r) a).2) from Prod.ext rfl e2.symm]
    exact this

/-- thread `t` only touches its own cells, and these are nobody else's -/
structure Separate (own : Nat → Nat → Prop) (m : Mach β ρ) : Prop where
  acts : ∀ (t : Nat) (th : Thread β ρ), m.threads[t]? = some th → ∀ a ∈ th.todo, own t a.cell
  disj : ∀ t t' c, own t c → own t' c → t = t'

/-- what thread `t` will have written when it ends, running alone from here -/
def future (m : Mach β ρ) (t c : Nat) : Option β :=
  match m.threads[t]? with
  | some th => (solo (m.mem, th.reg) th.todo).1[c]?
  | none => none

theorem stepThread_spec {own : Nat → Nat → Prop} (m : Mach β ρ) (hs : Separate own m) (t : Nat) :
    Separate own (stepThread m t) ∧ (stepThread m t).threads.length = m.threads.length ∧
    (stepThread m t).mem.length = m.mem.length ∧
    (∀ t' c, own t' c → future (stepThread m t) t' c = future m t' c) ∧
    (∀ c, (∀ t', ¬ own t' c) → (stepThread m t).mem[c]? = m.mem[c]?) := by
  cases ht : m.threads[t]? with
  | none =>
    have : stepThread m t = m := by unfold stepThread; rw [ht]
    rw [this]
    exact ⟨hs, rfl, rfl, fun _ _ _ => rfl, fun _ _ => rfl⟩
  | some th =>
    obtain ⟨r, todo⟩ := th
    cases todo with
    | nil =>
      have : stepThread m t = m := by unfold stepThread; rw [ht]
      rw [this]
      exact ⟨hs, rfl, rfl, fun _ _ _ => rfl, fun _ _ => rfl⟩
    | cons a rest =>
      have he : stepThread m t = ⟨(access (m.mem, r) a).1, m.threads.set t ⟨(access (m.mem, r) a).2, rest⟩⟩ := by
        unfold stepThread; rw [ht]
      have hown : own t a.cell := hs.acts t _ ht a (by simp)
      have htl : t < m.threads.length := (List.getElem?_eq_some_iff.mp ht).1
      rw [he]
      refine ⟨⟨?_, hs.disj⟩, by simp, access_length _ _, ?_, ?_⟩
      · intro t' th' h' x hx
        dsimp only at h'
        rw [List.getElem?_set] at h'
        by_cases e : t = t'
        · rw [if_pos e, if_pos htl] at h'
          rw [← Option.some.inj h'] at hx
          exact e ▸ hs.acts t _ ht x (by simp [show x ∈ rest from hx])
        · rw [if_neg e] at h'
          exact hs.acts t' th' h' x hx
      · intro t' c hc
        unfold future
        rw [List.getElem?_set]
        by_cases e : t = t'
        · subst e
          rw [if_pos rfl, if_pos htl, ht]
          rfl
        · rw [if_neg e]
          cases h' : m.threads[t']? with
          | none => rfl
          | some th' =>
            refine solo_agree (own t') th'.todo _ _ _ (access_length _ _) ?_ (fun x hx => hs.acts t' th' h' x hx) c hc
            intro c' hc'
            refine access_other _ _ _ fun e' => e ?_
            rw [e'] at hown
            exact hs.disj t t' c' hown hc'
      · intro c hc
        exact access_other _ _ _ fun e => hc t (e ▸ hown)

theorem runSched_spec {own : Nat → Nat → Prop} (sched : List Nat) : ∀ (m : Mach β ρ), Separate own m →
    Separate own (runSched m sched) ∧ (runSched m sched).threads.length = m.threads.length ∧
    (runSched m sched).mem.length = m.mem.length ∧
    (∀ t' c, own t' c → future (runSched m sched) t' c = future m t' c) ∧
    (∀ c, (∀ t', ¬ own t' c) → (runSched m sched).mem[c]? = m.mem[c]?) := by
  induction sched with
  | nil => intro m hs; exact ⟨hs, rfl, rfl, fun _ _ _ => rfl, fun _ _ => rfl⟩
  | cons t sched ih =>
    intro m hs
    obtain ⟨a1, a2, a3, a4, a5⟩ := stepThread_spec m hs t
    obtain ⟨b1, b2, b3, b4, b5⟩ := ih (stepThread m t) a1
    exact ⟨b1, b2.trans a2, b3.trans a3, fun t' c hc => (b4 t' c hc).trans (a4 t' c hc), fun c hc => (b5 c hc).trans (a5 c hc)⟩

/-- under every complete schedule, a thread's cells end up as if it had run alone -/
theorem race_free {own : Nat → Nat → Prop} (m : Mach β ρ) (hs : Separate own m) (sched : List Nat)
    (hd : Done (runSched m sched)) (t c : Nat) (hc : own t c) (th : Thread β ρ) (ht : m.threads[t]? = some th) :
    (runSched m sched).mem[c]? = (solo (m.mem, th.reg) th.todo).1[c]? := by
  obtain ⟨_, b2, _, b4, _⟩ := runSched_spec sched m hs
  have h1 := b4 t c hc
  have htl : t < (runSched m sched).threads.length := by
    rw [b2]; exact (List.getElem?_eq_some_iff.mp ht).1
  have h2 : (runSched m sched).threads[t]? = some (runSched m sched).threads[t] := List.getElem?_eq_getElem htl
  have h3 := hd _ (List.getElem_mem htl)
  unfold future at h1
  rw [ht, h2] at h1
  dsimp only at h1
  rw [h3] at h1
  exact h1

/-- accesses still to be made -/
def total (l : List (Thread β ρ)) : Nat := (l.map fun th => th.todo.length).sum

/-- a complete schedule always exists: one thread after the other -/
theorem exists_schedule (m : Mach β ρ) : ∃ sched, Done (runSched m sched) := by
  have key : ∀ (n : Nat) (m : Mach β ρ), total m.threads = n → ∃ sched, Done (runSched m sched) := by
    intro n
    induction n with
    | zero =>
      intro m h
      refine ⟨[], fun th hth => ?_⟩
      obtain ⟨l1, l2, hl⟩ := List.append_of_mem (show th ∈ m.threads from hth)
      rw [hl] at h
      simp only [total, List.map_append, List.map_cons, List.sum_append, List.sum_cons] at h
      exact List.length_eq_zero_iff.mp (by omega)
    | succ n ih =>
      intro m h
      by_cases hc : ∃ th ∈ m.threads, th.todo ≠ []
      · obtain ⟨th, hth, hne⟩ := hc
        obtain ⟨l1, l2, hl⟩ := List.append_of_mem hth
        obtain ⟨r, todo⟩ := th
        cases todo with
        | nil => exact absurd rfl hne
        | cons a rest =>
          have he : stepThread m l1.length = ⟨(access (m.mem, r) a).1, l1 ++ ⟨(access (m.mem, r) a).2, rest⟩ :: l2⟩ := by
            unfold stepThread
            rw [hl]
            simp
          obtain ⟨sched, hs⟩ := ih (stepThread m l1.length) (by
            rw [he]
            rw [hl] at h
            simp only [total, List.map_append, List.map_cons, List.sum_append, List.sum_cons, List.length_cons] at h ⊢
            omega)
          exact ⟨l1.length :: sched, hs⟩
      · refine ⟨[], fun th hth => ?_⟩
        by_contra h0
        exact hc ⟨th, hth, h0⟩
  exact key _ m rfl

theorem solo_append (s : List β × ρ) (a b : List (Act β ρ)) : solo s (a ++ b) = solo (solo s a) b := by
  simp [solo, List.foldl_append]

end Verif.Par
