import Verif.Model.Nesta
import Verif.Spec.Nesta

/-! # The window of recent objective values -/

namespace L1c
open Scalar

/-- the slots of the window, read backwards from the write position, hold the most recent values -/
def FifoHolds (q : Fifo Dbl) (recent : List Dbl) : Prop :=
  q.n_total = min recent.length 10 ∧ ∀ i : Fin 10, q.f_vals (q.next - 1 - i) = recent.getD i (lit 0)

theorem fifoHolds_new : FifoHolds fifoNew [] := ⟨rfl, fun i => by simp [fifoNew]⟩

theorem fifoPush_next (q : Fifo Dbl) (v : Dbl) : (fifoPush q v).next = q.next + 1 := by
  have h := q.next.isLt
  apply Fin.ext
  unfold fifoPush
  dsimp only
  rw [Fin.val_add]
  split
  · rename_i h'
    have : q.next.val = 9 := by have := q.next.isLt; change q.next.val + 1 > 9 at h'; change q.next.val < 10 at h; omega
    rw [this]; rfl
  · rename_i h'
    change ¬ q.next.val + 1 > 9 at h'
    show q.next.val + 1 = (q.next.val + 1) % 10
    omega

theorem fifoHolds_push {q : Fifo Dbl} {recent : List Dbl} (h : FifoHolds q recent) (v : Dbl) :
    FifoHolds (fifoPush q v) (v :: recent) := by
  refine ⟨?_, fun i => ?_⟩
  · show (if q.n_total < 10 then q.n_total + 1 else q.n_total) = min (recent.length + 1) 10
    rw [h.1]; split <;> omega
  · rw [fifoPush_next]
    show Function.update q.f_vals q.next v (q.next + 1 - 1 - i) = _
    rw [add_sub_cancel_right]
    refine Fin.cases ?_ (fun j => ?_) i
    · simp
    · have e : q.next - j.succ = q.next - 1 - Fin.castSucc j := by
        rw [sub_sub]; congr 1
        rw [← Fin.coeSucc_eq_succ]; exact add_comm (G := Fin 10) _ _
      rw [Function.update_of_ne, e, h.2]
      · simp
      · intro hc
        have : (j.succ : Fin 10) = 0 := by
          have := sub_eq_self.1 hc
          exact this
        exact absurd this (Fin.succ_ne_zero j)

theorem sum_getD (l : List Dbl) (N : ℕ) : ∑ i ∈ Finset.range N, l.getD i (lit 0) = (l.take N).sum := by
  induction N generalizing l with
  | zero => simp
  | succ N ih =>
    rw [Finset.sum_range_succ']
    cases l with
    | nil =>
      simp only [List.getD_nil, List.take_nil, List.sum_nil]
      rw [show (lit 0 : Dbl) = 0 from rfl]; simp
    | cons a t =>
      simp only [List.getD_cons_succ, ih, List.take_succ_cons, List.sum_cons, List.getD_cons_zero]
      rw [add_comm]

theorem fifoMean_eq {q : Fifo Dbl} {recent : List Dbl} (h : FifoHolds q recent) : fifoMean q = windowMean recent := by
  unfold fifoMean windowMean
  rw [dsum_eq_sum, ← Equiv.sum_comp (Equiv.subLeft (q.next - 1)) q.f_vals, ← sum_getD, ← Fin.sum_univ_eq_sum_range, h.1]
  simp only [Equiv.subLeft_apply, h.2]
  rw [show (lit ((min recent.length 10 : ℕ) : ℚ) : Dbl) = Dbl.fin ((min recent.length 10 : ℕ) : ℝ) by
    rw [Dbl.lit_eq, Rat.cast_natCast]]

end L1c
