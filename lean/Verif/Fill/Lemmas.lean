import Verif.Fill.Model
import Verif.Fill.Spec

namespace Verif.Fill
variable {α : Type}

/-- List-recursive form of the fill loop; `d` counts the invalid entries seen
since the last valid one. -/
def run (isInv : α → Bool) (limit : Int) : α → Nat → List α → List α
  | _, _, [] => []
  | last, d, x :: xs =>
    if isInv x then
      (if limit ≤ 0 ∨ (d : Int) < limit then last else x) :: run isInv limit last (d + 1) xs
    else x :: run isInv limit x 0 xs

theorem foldl_unlimited_fwd (isInv : α → Bool) (limit : Int) (hl : limit ≤ 0) :
    ∀ (suf pre : List α) (last : α) (c : Int) (d : Nat),
      ((List.range' pre.length suf.length).foldl (bodyUnlimited isInv) ⟨pre ++ suf, last, c⟩).arr
        = pre ++ run isInv limit last d suf
  | [], pre, last, c, d => by simp [run]
  | x :: xs, pre, last, c, d => by
    have hget : (pre ++ x :: xs)[pre.length]? = some x := by simp
    simp only [List.length_cons, List.range'_succ, List.foldl_cons, bodyUnlimited, hget, run]
    by_cases hx : isInv x = true
    · have := foldl_unlimited_fwd isInv limit hl xs (pre ++ [last]) last c (d + 1)
      simp only [List.length_append, List.length_cons, List.length_nil, List.append_assoc,
        List.cons_append, List.nil_append] at this
      simp [hx, hl, List.set_append, this]
    · have := foldl_unlimited_fwd isInv limit hl xs (pre ++ [x]) x c 0
      simp only [List.length_append, List.length_cons, List.length_nil, List.append_assoc,
        List.cons_append, List.nil_append] at this
      simp [hx, this]

theorem foldl_limited_fwd (isInv : α → Bool) (limit : Int) (hl : 0 < limit) :
    ∀ (suf pre : List α) (last : α) (c : Int) (d : Nat), c = max (limit - d) 0 →
      ((List.range' pre.length suf.length).foldl (bodyLimited isInv limit) ⟨pre ++ suf, last, c⟩).arr
        = pre ++ run isInv limit last d suf
  | [], pre, last, c, d, _ => by simp [run]
  | x :: xs, pre, last, c, d, hc => by
    have hget : (pre ++ x :: xs)[pre.length]? = some x := by simp
    simp only [List.length_cons, List.range'_succ, List.foldl_cons, bodyLimited, hget, run]
    by_cases hx : isInv x = true
    · by_cases hd : (d : Int) < limit
      · have hc' : c > 0 := by omega
        have := foldl_limited_fwd isInv limit hl xs (pre ++ [last]) last (c - 1) (d + 1) (by omega)
        simp only [List.length_append, List.length_cons, List.length_nil, List.append_assoc,
          List.cons_append, List.nil_append] at this
        simp [hx, hd, hc', List.set_append, this]
      · have hc' : ¬ c > 0 := by omega
        have hl' : ¬ limit ≤ 0 := by omega
        have := foldl_limited_fwd isInv limit hl xs (pre ++ [x]) last c (d + 1) (by omega)
        simp only [List.length_append, List.length_cons, List.length_nil, List.append_assoc,
          List.cons_append, List.nil_append] at this
        simp [hx, hd, hc', hl', this]
    · have := foldl_limited_fwd isInv limit hl xs (pre ++ [x]) x limit 0 (by omega)
      simp only [List.length_append, List.length_cons, List.length_nil, List.append_assoc,
        List.cons_append, List.nil_append] at this
      simp [hx, this]

theorem fillForwardKernel_eq_run (isInv : α → Bool) (fv : α) (limit : Int) (arr : List α) :
    fillForwardKernel isInv fv limit arr = run isInv limit fv 0 arr := by
  unfold fillForwardKernel fillKernel
  split
  · next h =>
    have := foldl_unlimited_fwd isInv limit h arr [] fv 0 0
    simpa [List.range_eq_range'] using this
  · next h =>
    have := foldl_limited_fwd isInv limit (by omega) arr [] fv limit 0 (by omega)
    simpa [List.range_eq_range'] using this

theorem range_reverse_succ (n : Nat) :
    (List.range (n + 1)).reverse = n :: (List.range n).reverse := by
  simp [List.range_succ]

theorem foldl_unlimited_bwd (isInv : α → Bool) (limit : Int) (hl : limit ≤ 0) :
    ∀ (rem post : List α) (last : α) (c : Int) (d : Nat),
      ((List.range rem.length).reverse.foldl (bodyUnlimited isInv) ⟨rem.reverse ++ post, last, c⟩).arr
        = (run isInv limit last d rem).reverse ++ post
  | [], post, last, c, d => by simp [run]
  | x :: xs, post, last, c, d => by
    have hget : ((x :: xs).reverse ++ post)[xs.length]? = some x := by
      simp
    rw [List.length_cons, range_reverse_succ, List.foldl_cons]
    simp only [bodyUnlimited, hget, run]
    by_cases hx : isInv x = true
    · have := foldl_unlimited_bwd isInv limit hl xs (last :: post) last c (d + 1)
      simp [-List.foldl_reverse, hx, hl, List.set_append, this]
    · have := foldl_unlimited_bwd isInv limit hl xs (x :: post) x c 0
      simp [-List.foldl_reverse, hx, this]

theorem foldl_limited_bwd (isInv : α → Bool) (limit : Int) (hl : 0 < limit) :
    ∀ (rem post : List α) (last : α) (c : Int) (d : Nat), c = max (limit - d) 0 →
      ((List.range rem.length).reverse.foldl (bodyLimited isInv limit)
          ⟨rem.reverse ++ post, last, c⟩).arr
        = (run isInv limit last d rem).reverse ++ post
  | [], post, last, c, d, _ => by simp [run]
  | x :: xs, post, last, c, d, hc => by
    have hget : ((x :: xs).reverse ++ post)[xs.length]? = some x := by
      simp
    rw [List.length_cons, range_reverse_succ, List.foldl_cons]
    simp only [bodyLimited, hget, run]
    by_cases hx : isInv x = true
    · by_cases hd : (d : Int) < limit
      · have hc' : c > 0 := by omega
        have := foldl_limited_bwd isInv limit hl xs (last :: post) last (c - 1) (d + 1) (by omega)
        simp [-List.foldl_reverse, hx, hd, hc', List.set_append, this]
      · have hc' : ¬ c > 0 := by omega
        have hl' : ¬ limit ≤ 0 := by omega
        have := foldl_limited_bwd isInv limit hl xs (x :: post) last c (d + 1) (by omega)
        simp [-List.foldl_reverse, hx, hd, hc', hl', this]
    · have := foldl_limited_bwd isInv limit hl xs (x :: post) x limit 0 (by omega)
      simp [-List.foldl_reverse, hx, this]

theorem fillBackwardKernel_eq_run (isInv : α → Bool) (fv : α) (limit : Int) (arr : List α) :
    fillBackwardKernel isInv fv limit arr = (run isInv limit fv 0 arr.reverse).reverse := by
  unfold fillBackwardKernel fillKernel
  split
  · next h =>
    have := foldl_unlimited_bwd isInv limit h arr.reverse [] fv 0 0
    simpa [-List.foldl_reverse] using this
  · next h =>
    have := foldl_limited_bwd isInv limit (by omega) arr.reverse [] fv limit 0 (by omega)
    simpa [-List.foldl_reverse] using this

theorem run_length (isInv : α → Bool) (limit : Int) :
    ∀ (xs : List α) (last : α) (d : Nat), (run isInv limit last d xs).length = xs.length
  | [], _, _ => rfl
  | x :: xs, last, d => by
    unfold run; split <;> simp [run_length isInv limit xs]

theorem run_valid (isInv : α → Bool) (limit : Int) :
    ∀ (xs : List α) (last : α) (d i : Nat) (x : α), xs[i]? = some x → isInv x = false →
      (run isInv limit last d xs)[i]? = some x
  | [], _, _, _, _, h, _ => by simp at h
  | y :: ys, last, d, 0, x, h, hv => by
    simp at h; subst h; simp [run, hv]
  | y :: ys, last, d, i + 1, x, h, hv => by
    simp at h
    unfold run; split
    · simpa using run_valid isInv limit ys _ _ i x h hv
    · simpa using run_valid isInv limit ys _ _ i x h hv

theorem run_leading (isInv : α → Bool) (limit : Int) :
    ∀ (xs : List α) (last : α) (d i : Nat) (x : α), xs[i]? = some x → isInv x = true →
      NoneValidBefore isInv xs i →
      (run isInv limit last d xs)[i]? = some (if Within limit (d + i + 1) then last else x)
  | [], _, _, _, _, h, _, _ => by simp at h
  | y :: ys, last, d, 0, x, h, hv, _ => by
    simp at h; subst h
    simp only [run, hv, if_true, List.getElem?_cons_zero, Within]
    congr 1
  | y :: ys, last, d, i + 1, x, h, hv, hn => by
    simp at h
    have hy : isInv y = true := hn 0 y (by omega) (by simp)
    have hn' : NoneValidBefore isInv ys i := fun k z hk hz => hn (k + 1) z (by omega) (by simpa using hz)
    have := run_leading isInv limit ys last (d + 1) i x h hv hn'
    simp only [run, hy, if_true, List.getElem?_cons_succ, this]
    have e : d + 1 + i + 1 = d + (i + 1) + 1 := by omega
    simp only [e]

theorem run_filled (isInv : α → Bool) (limit : Int) :
    ∀ (xs : List α) (last : α) (d i : Nat) (x : α) (j : Nat) (y : α), xs[i]? = some x →
      isInv x = true → LastValidBefore isInv xs i j y →
      (run isInv limit last d xs)[i]? = some (if Within limit (i - j) then y else x)
  | [], _, _, _, _, _, _, h, _, _ => by simp at h
  | z :: zs, last, d, 0, x, j, y, h, hv, hj => by
    exact absurd hj.1 (by omega)
  | z :: zs, last, d, i + 1, x, 0, y, h, hv, hj => by
    simp at h
    obtain ⟨_, hy, hyv, hb⟩ := hj
    simp at hy; subst hy
    have hn : NoneValidBefore isInv zs i := fun k w hk hw =>
      hb (k + 1) w (by omega) (by omega) (by simpa using hw)
    have := run_leading isInv limit zs z 0 i x h hv hn
    simp only [run, hyv, List.getElem?_cons_succ]
    simp only [Bool.false_eq_true, if_false, List.getElem?_cons_succ, this]
    have e : 0 + i + 1 = i + 1 - 0 := by omega
    rw [e]
  | z :: zs, last, d, i + 1, x, j + 1, y, h, hv, hj => by
    simp at h
    obtain ⟨hlt, hy, hyv, hb⟩ := hj
    have hj' : LastValidBefore isInv zs i j y :=
      ⟨by omega, by simpa using hy, hyv, fun k w h1 h2 hw =>
        hb (k + 1) w (by omega) (by omega) (by simpa using hw)⟩
    have e : i + 1 - (j + 1) = i - j := by omega
    rw [e]
    unfold run; split
    · simpa using run_filled isInv limit zs last (d + 1) i x j y h hv hj'
    · simpa using run_filled isInv limit zs z 0 i x j y h hv hj'

theorem run_filledFrom (isInv : α → Bool) (limit : Int) (fv : α) (xs : List α) :
    FilledFrom isInv fv limit xs (run isInv limit fv 0 xs) where
  length_eq := run_length ..
  valid_kept := fun i x => run_valid isInv limit xs fv 0 i x
  filled := fun i x j y => run_filled isInv limit xs fv 0 i x j y
  leading := fun i x h hv hn => by
    have := run_leading isInv limit xs fv 0 i x h hv hn
    simpa using this

end Verif.Fill
