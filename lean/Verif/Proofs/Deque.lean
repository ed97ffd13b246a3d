import Verif.Model.Deque
import Verif.Proofs.Basic

/-!
# The circular deque represents a list
-/

namespace Onex

/-- `d` (of capacity `c`) holds the elements of `l`, front first. -/
structure Rep (c : ℕ) (d : Deque) (l : List Int) : Prop where
  cap : d.capacity = c
  dlen : d.data.length = c
  size : d.size = len l
  fit : l.length ≤ c
  frange : 0 < c → 0 ≤ d.f ∧ d.f < c
  rpos : d.r = if c = 0 then -1 else (d.f - 1 - len l) % c
  cells : ∀ (k : ℕ) (v : Int), l[k]? = some v → d.data[((d.f - 1 - k) % c).toNat]? = some (some v)

theorem rep_new (c : ℕ) : Rep c (Deque.new c) [] := by
  refine ⟨rfl, by simp [Deque.new], rfl, by simp, fun h => by simp [Deque.new]; omega, ?_, by simp⟩
  simp only [Deque.new, len_nil]
  split
  · omega
  · rename_i h
    have h1 : (0 : Int) < c := by omega
    rw [show (0 - 1 - 0 : Int) = (c - 1) + c * (-1) by ring, Int.add_mul_emod_self_left,
      Int.emod_eq_of_lt (by omega) (by omega)]

theorem emod_sub_one {c x : Int} (hc : 0 < c) :
    (if x % c - 1 < 0 then c - 1 else x % c - 1) = (x - 1) % c := by
  have h0 := Int.emod_nonneg x (by omega : c ≠ 0)
  have h1 := Int.emod_lt_of_pos x hc
  have e : x - 1 = (x % c - 1) + c * (x / c) := by
    have := Int.emod_add_mul_ediv x c
    linarith
  rw [e, Int.add_mul_emod_self_left]
  split
  · have : x % c = 0 := by omega
    rw [this, show (0 - 1 : Int) = (c - 1) + c * (-1) by ring, Int.add_mul_emod_self_left,
      Int.emod_eq_of_lt (by omega) (by omega)]
  · exact (Int.emod_eq_of_lt (by omega) (by omega)).symm

theorem emod_add_one {c x : Int} (hc : 0 < c) : (x % c + 1).tmod c = (x + 1) % c := by
  have h0 := Int.emod_nonneg x (by omega : c ≠ 0)
  rw [Int.tmod_eq_emod_of_nonneg (by omega)]
  simp [Int.add_emod]

variable {c : ℕ} {d : Deque} {l : List Int}

theorem rep_pushBack (h : Rep c d l) (hfit : l.length < c) (v : Int) :
    ∃ d', d.pushBack v = .ok d' ∧ Rep c d' (l ++ [v]) := by
  have hc : (0 : Int) < c := by omega
  have hr : d.r = (d.f - 1 - len l) % c := by rw [h.rpos, if_neg (by omega)]
  have hr0 : 0 ≤ d.r := by rw [hr]; exact Int.emod_nonneg _ (by omega)
  have hr1 : d.r < len d.data := by
    rw [hr]; simp only [len, h.dlen]; exact Int.emod_lt_of_pos _ hc
  unfold Deque.pushBack
  rw [vset_ok _ hr0 hr1]
  refine ⟨_, rfl, ?_⟩
  refine ⟨h.cap, by simp [h.dlen], by simp [h.size], by simp; omega, h.frange, ?_, ?_⟩
  · simp only [h.cap, len_append, len_cons, len_nil]
    rw [if_neg (by omega : ¬ c = 0)]
    have := emod_sub_one (c := c) (x := d.f - 1 - len l) hc
    rw [hr, this]
    congr 1
    ring
  · intro k w hk
    simp only
    rcases Nat.lt_or_ge k l.length with hkl | hkl
    · rw [List.getElem?_append_left hkl] at hk
      have := h.cells k w hk
      rw [List.getElem?_set_ne]
      · exact this
      · intro heq
        rw [hr] at heq
        have e1 := Int.emod_nonneg (d.f - 1 - len l) (show (c : Int) ≠ 0 by omega)
        have e2 := Int.emod_nonneg (d.f - 1 - k) (show (c : Int) ≠ 0 by omega)
        have e3 : (d.f - 1 - len l) % c = (d.f - 1 - k) % c := by omega
        have e4 := Int.emod_emod_of_dvd (d.f - 1 - k) (dvd_refl (c : Int))
        have e5 : ((d.f - 1 - k) - (d.f - 1 - len l)) % (c : Int) = 0 :=
          Int.emod_eq_emod_iff_emod_sub_eq_zero.mp e3.symm
        have e6 : (len l - k) % (c : Int) = 0 := by
          rw [← e5]
          congr 1
          ring
        rw [Int.emod_eq_of_lt (by simp only [len]; omega) (by simp only [len]; omega)] at e6
        simp only [len] at e6
        omega
    · rw [List.getElem?_append_right hkl] at hk
      have hk0 : k - l.length = 0 := by
        by_contra hne
        rw [List.getElem?_eq_none (by simp; omega)] at hk
        cases hk
      rw [hk0] at hk
      simp at hk
      subst hk
      have : k = l.length := by omega
      subst this
      have e : ((d.f - 1 - (l.length : Int)) % c).toNat = d.r.toNat := by
        rw [hr]; rfl
      rw [e, List.getElem?_set_self]
      simp only [len] at hr1
      omega

theorem rep_popFront {x : Int} (h : Rep c d (x :: l)) :
    ∃ d', d.popFront = .ok d' ∧ Rep c d' l := by
  have hc : (0 : Int) < c := by have := h.fit; simp at this; omega
  have hf := h.frange (by omega)
  have hfe : d.f % c = d.f := Int.emod_eq_of_lt hf.1 hf.2
  have hf' := emod_sub_one (c := c) (x := d.f) hc
  rw [hfe] at hf'
  unfold Deque.popFront
  refine ⟨_, rfl, ?_⟩
  simp only [h.cap, hf']
  refine ⟨by rw [← h.cap], h.dlen, by simp [h.size], by have := h.fit; simp at this; omega, ?_, ?_, ?_⟩
  · intro _
    exact ⟨Int.emod_nonneg _ (by omega), Int.emod_lt_of_pos _ hc⟩
  · simp only
    rw [h.rpos, if_neg (by omega : ¬ c = 0), if_neg (by omega : ¬ c = 0)]
    rw [Int.sub_sub ((d.f - 1) % c), Int.emod_sub_emod]
    congr 1
    simp
    ring
  · intro k v hk
    simp only
    have := h.cells (k + 1) v (by simpa using hk)
    rw [Int.sub_sub ((d.f - 1) % c), Int.emod_sub_emod]
    rw [← this]
    congr 3
    push_cast
    ring

theorem rep_popBack {x : Int} (h : Rep c d (l ++ [x])) :
    ∃ d', d.popBack = .ok d' ∧ Rep c d' l := by
  have hfit := h.fit
  simp at hfit
  have hc : (0 : Int) < c := by omega
  unfold Deque.popBack
  rw [if_neg (by rw [h.cap]; omega)]
  refine ⟨_, rfl, ?_⟩
  have hr : d.r = (d.f - 1 - (len l + 1)) % c := by
    rw [h.rpos, if_neg (by omega)]
    simp
  refine ⟨h.cap, h.dlen, by simp [h.size], by omega, h.frange, ?_, ?_⟩
  · simp only
    rw [if_neg (by omega : ¬ c = 0), h.cap, hr, emod_add_one hc]
    congr 1
    ring
  · intro k v hk
    apply h.cells k v
    rw [List.getElem?_append_left]
    · exact hk
    · exact (List.getElem?_eq_some_iff.mp hk).1

theorem rep_front {x : Int} (h : Rep c d (x :: l)) : d.front = .ok x := by
  have hc : (0 : Int) < c := by have := h.fit; simp at this; omega
  have hf := h.frange (by omega)
  have hfe : d.f % c = d.f := Int.emod_eq_of_lt hf.1 hf.2
  have hf' := emod_sub_one (c := c) (x := d.f) hc
  rw [hfe] at hf'
  unfold Deque.front
  have := h.cells 0 x rfl
  simp only [Nat.cast_zero, sub_zero] at this
  simp only [h.cap, hf']
  rw [vget_of_getElem? (Int.emod_nonneg _ (by omega)) this]
  rfl

theorem rep_back {x : Int} (h : Rep c d (l ++ [x])) : d.back = .ok x := by
  have hfit := h.fit
  simp at hfit
  have hc : (0 : Int) < c := by omega
  have hr : d.r = (d.f - 1 - (len l + 1)) % c := by
    rw [h.rpos, if_neg (by omega)]
    simp
  unfold Deque.back
  rw [if_neg (by rw [h.cap]; omega)]
  have h1 := h.cells l.length x (by simp)
  have e : (d.r + 1).tmod d.capacity = (d.f - 1 - l.length) % c := by
    rw [h.cap, hr, emod_add_one hc]
    congr 1
    simp only [len]
    ring
  simp only [e]
  rw [vget_of_getElem? (Int.emod_nonneg _ (by omega)) h1]
  rfl

theorem rep_empty (h : Rep c d l) : d.empty = l.isEmpty := by
  unfold Deque.empty
  rw [h.size]
  cases l with
  | nil => rfl
  | cons x xs =>
    have h1 := len_nonneg xs
    simp
    omega

end Onex
