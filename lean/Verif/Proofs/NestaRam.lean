import Verif.Proofs.ArrMem
import Verif.Proofs.NewtonFull

/-! Helper lemmas: NESTA on memory follows NESTA on vectors. -/

namespace L1c
open Prog Scalar Cmd

variable {F : Type} [Scalar F] {σ : Type} {n m p : ℕ}

/-- the arrays of a run -/
inductive NI | b | xo | xk | yk | zk | Atb | gradf | gradf_sum | dwork1 | dwork2 | fifo
  deriving DecidableEq

/-- their lengths; `K` is the length of the window, 0 before it is allocated -/
def nlen (n m p K : ℕ) : NI → ℕ
  | .b => n
  | .dwork1 => max m p
  | .dwork2 => max m p
  | .fifo => K
  | _ => m

/-- where they are; `fv` is the window -/
def NPtr.pt (q : NPtr) (fv : Ptr) : NI → Ptr
  | .b => q.b
  | .xo => q.xo
  | .xk => q.xk
  | .yk => q.yk
  | .zk => q.zk
  | .Atb => q.Atb
  | .gradf => q.gradf
  | .gradf_sum => q.gradf_sum
  | .dwork1 => q.dwork1
  | .dwork2 => q.dwork2
  | .fifo => fv

/-- their contents -/
def nEnv {K : ℕ} (P : NestaProb F n m p) (w : Vec F K) : (i : NI) → Vec F (nlen n m p K i)
  | .b => P.b
  | .xo => P.xo
  | .xk => P.xk
  | .yk => P.yk
  | .zk => P.zk
  | .Atb => P.Atb
  | .gradf => P.gradf
  | .gradf_sum => P.gradf_sum
  | .dwork1 => P.dwork1
  | .dwork2 => P.dwork2
  | .fifo => w

/-- the scalars -/
def NestaProb.scal (P : NestaProb F n m p) : NScal F := ⟨P.fx, P.sigma, P.mu, P.tol, P.mu_j, P.tol_j, P.L⟩

/-- the window on memory and as values -/
def FifoRel (fv : Ptr) (q : FifoM) (f : Fifo F) : Prop := q.f_vals = fv ∧ q.n_total = f.n_total ∧ q.next = fv + ((f.next : ℕ) : Int)

variable {axM : NAxM F} {ax : NAx F σ n m p} {R : σ → PState F → Prop} {Own : Set Ptr} {q : NPtr} {fv : Ptr}

local macro "others" : tactic => `(tactic| (intro i hi; cases i <;> first | rfl | exact absurd rfl hi))
local macro "others2" : tactic => `(tactic| (intro _ _ i hi hj; cases i <;> first | rfl | exact absurd rfl hi | exact absurd rfl hj))

theorem projectM_y (H : NImpl axM ax R Own) (K : OwnData R Own) (S : ASep (nlen n m p L1C_NESTA_NMEAN) (q.pt fv) Own) (P : NestaProb F n m p) (w : Vec F L1C_NESTA_NMEAN) :
    Sim (nlen n m p L1C_NESTA_NMEAN) (q.pt fv) R Own (l1c_nesta_projectM axM q P.scal q.xk q.gradf q.yk) (nEnv P w) (l1c_nesta_project ax P P.xk P.gradf)
      (fun _ r V' => V' = nEnv { r.2 with yk := r.1 } w ∧ r.2.scal = P.scal ∧ r.2.gradf = P.gradf ∧ r.2.gradf_sum = P.gradf_sum ∧ r.2.xo = P.xo ∧ r.2.xk = P.xk) := by
  unfold l1c_nesta_projectM l1c_nesta_project
  rw [H.n, H.m]
  refine Sim.map2 S K (k := m) .gradf .xk .yk le_rfl le_rfl le_rfl (fun u v => lit (-1) / (P.L / P.mu_j) * u + v) rfl
    (V' := nEnv { P with yk := vaxpy (lit (-1) / (P.L / P.mu_j)) P.gradf P.xk } w) (vput_full _ _ _).symm (by others) ?_
  refine Sim.lift fun old ho => ?_
  obtain ⟨hn, rfl⟩ := slice_head ho
  refine Sim.call S H.Ax .yk .dwork2 (by decide) le_rfl hn rfl rfl
    (fun y z => nEnv { P with yk := y, dwork2 := vput hn z P.dwork2 } w) (fun y z => (vput_full _ _ _).symm) (fun y z => rfl) (by others2) fun vk Aq => ?_
  refine Sim.lift fun d2 hd2 => ?_
  obtain ⟨-, rfl⟩ := writeAt_put hd2
  refine Sim.lift fun Aq' hAq => ?_
  obtain ⟨-, rfl⟩ := slice_head hAq
  refine Sim.lift fun old1 ho1 => ?_
  obtain ⟨hm, rfl⟩ := slice_head ho1
  refine Sim.call S H.Aty .dwork2 .dwork1 (by decide) hn hm rfl rfl
    (fun y z => nEnv { P with yk := vk, dwork2 := vput hn y (vput hn Aq P.dwork2), dwork1 := vput hm z P.dwork1 } w) (fun y z => rfl) (fun y z => rfl) (by others2) fun Aq2 AtAq => ?_
  refine Sim.lift fun d3 hd3 => ?_
  obtain ⟨-, rfl⟩ := writeAt_put hd3
  refine Sim.lift fun d4 hd4 => ?_
  obtain ⟨-, rfl⟩ := writeAt_put hd4
  refine Sim.lift fun r hr => ?_
  obtain ⟨-, rfl⟩ := slice_head hr
  refine Sim.assume ?_
  refine Sim.eval (v := vnrm2err P.b Aq2) (fun s hs => ?_) ?_
  · have h2 : HoldsV s q.dwork2 (vhead hn (vput hn Aq2 (vput hn Aq P.dwork2))) := (hs .dwork2).head hn
    rw [vhead_vput] at h2
    exact cmd_dnrm2_err (hs .b) h2
  refine Sim.map2 S K (k := m) .Atb .yk .yk le_rfl le_rfl le_rfl (fun u v => _ * u + v) rfl
    (V' := nEnv { P with yk := vaxpy _ P.Atb vk, dwork2 := vput hn Aq2 (vput hn Aq P.dwork2), dwork1 := vput hm AtAq P.dwork1 } w) (vput_full _ _ _).symm (by others) ?_
  rw [← cmd_bind_pure (exec _)]
  refine Sim.map2 S K (k := m) .dwork1 .yk .yk hm le_rfl le_rfl (fun u v => _ * u + v) rfl
    (V' := nEnv { P with yk := vaxpy _ (vhead hm (vput hm AtAq P.dwork1)) (vaxpy _ P.Atb vk), dwork2 := vput hn Aq2 (vput hn Aq P.dwork2), dwork1 := vput hm AtAq P.dwork1 } w)
    (vput_full _ _ _).symm (by others) ?_
  exact Sim.pure ⟨rfl, rfl, rfl, rfl, rfl, rfl⟩

theorem projectM_z (H : NImpl axM ax R Own) (K : OwnData R Own) (S : ASep (nlen n m p L1C_NESTA_NMEAN) (q.pt fv) Own) (P : NestaProb F n m p) (w : Vec F L1C_NESTA_NMEAN) :
    Sim (nlen n m p L1C_NESTA_NMEAN) (q.pt fv) R Own (l1c_nesta_projectM axM q P.scal q.xo q.gradf_sum q.zk) (nEnv P w) (l1c_nesta_project ax P P.xo P.gradf_sum)
      (fun _ r V' => V' = nEnv { r.2 with zk := r.1 } w ∧ r.2.scal = P.scal ∧ r.2.gradf = P.gradf ∧ r.2.gradf_sum = P.gradf_sum ∧ r.2.xo = P.xo ∧ r.2.xk = P.xk) := by
  unfold l1c_nesta_projectM l1c_nesta_project
  rw [H.n, H.m]
  refine Sim.map2 S K (k := m) .gradf_sum .xo .zk le_rfl le_rfl le_rfl (fun u v => lit (-1) / (P.L / P.mu_j) * u + v) rfl
    (V' := nEnv { P with zk := vaxpy (lit (-1) / (P.L / P.mu_j)) P.gradf_sum P.xo } w) (vput_full _ _ _).symm (by others) ?_
  refine Sim.lift fun old ho => ?_
  obtain ⟨hn, rfl⟩ := slice_head ho
  refine Sim.call S H.Ax .zk .dwork2 (by decide) le_rfl hn rfl rfl
    (fun y z => nEnv { P with zk := y, dwork2 := vput hn z P.dwork2 } w) (fun y z => (vput_full _ _ _).symm) (fun y z => rfl) (by others2) fun vk Aq => ?_
  refine Sim.lift fun d2 hd2 => ?_
  obtain ⟨-, rfl⟩ := writeAt_put hd2
  refine Sim.lift fun Aq' hAq => ?_
  obtain ⟨-, rfl⟩ := slice_head hAq
  refine Sim.lift fun old1 ho1 => ?_
  obtain ⟨hm, rfl⟩ := slice_head ho1
  refine Sim.call S H.Aty .dwork2 .dwork1 (by decide) hn hm rfl rfl
    (fun y z => nEnv { P with zk := vk, dwork2 := vput hn y (vput hn Aq P.dwork2), dwork1 := vput hm z P.dwork1 } w) (fun y z => rfl) (fun y z => rfl) (by others2) fun Aq2 AtAq => ?_
  refine Sim.lift fun d3 hd3 => ?_
  obtain ⟨-, rfl⟩ := writeAt_put hd3
  refine Sim.lift fun d4 hd4 => ?_
  obtain ⟨-, rfl⟩ := writeAt_put hd4
  refine Sim.lift fun r hr => ?_
  obtain ⟨-, rfl⟩ := slice_head hr
  refine Sim.assume ?_
  refine Sim.eval (v := vnrm2err P.b Aq2) (fun s hs => ?_) ?_
  · have h2 : HoldsV s q.dwork2 (vhead hn (vput hn Aq2 (vput hn Aq P.dwork2))) := (hs .dwork2).head hn
    rw [vhead_vput] at h2
    exact cmd_dnrm2_err (hs .b) h2
  refine Sim.map2 S K (k := m) .Atb .zk .zk le_rfl le_rfl le_rfl (fun u v => _ * u + v) rfl
    (V' := nEnv { P with zk := vaxpy _ P.Atb vk, dwork2 := vput hn Aq2 (vput hn Aq P.dwork2), dwork1 := vput hm AtAq P.dwork1 } w) (vput_full _ _ _).symm (by others) ?_
  rw [← cmd_bind_pure (exec _)]
  refine Sim.map2 S K (k := m) .dwork1 .zk .zk hm le_rfl le_rfl (fun u v => _ * u + v) rfl
    (V' := nEnv { P with zk := vaxpy _ (vhead hm (vput hm AtAq P.dwork1)) (vaxpy _ P.Atb vk), dwork2 := vput hn Aq2 (vput hn Aq P.dwork2), dwork1 := vput hm AtAq P.dwork1 } w)
    (vput_full _ _ _).symm (by others) ?_
  exact Sim.pure ⟨rfl, rfl, rfl, rfl, rfl, rfl⟩


theorem fevalM_sim (H : NImpl axM ax R Own) (K : OwnData R Own) (S : ASep (nlen n m p L1C_NESTA_NMEAN) (q.pt fv) Own) (P : NestaProb F n m p) (w : Vec F L1C_NESTA_NMEAN) :
    Sim (nlen n m p L1C_NESTA_NMEAN) (q.pt fv) R Own (l1c_nesta_fevalM axM q P.scal) (nEnv P w) (l1c_nesta_feval ax P) (fun c P' V' => V' = nEnv P' w ∧ c = P'.scal) := by
  unfold l1c_nesta_fevalM l1c_nesta_feval
  rw [H.p]
  refine Sim.lift fun old ho => ?_
  obtain ⟨hp, rfl⟩ := slice_head ho
  refine Sim.call S H.Wtx .xk .dwork1 (by decide) le_rfl hp rfl rfl
    (fun y z => nEnv { P with xk := y, dwork1 := vput hp z P.dwork1 } w) (fun y z => (vput_full _ _ _).symm) (fun y z => rfl) (by others2) fun xk r => ?_
  refine Sim.lift fun d1 hd1 => ?_
  obtain ⟨-, rfl⟩ := writeAt_put hd1
  refine Sim.lift fun wt hwt => ?_
  obtain ⟨-, rfl⟩ := slice_head hwt
  refine Sim.lift fun d2 hd2 => ?_
  obtain ⟨-, rfl⟩ := writeAt_put hd2
  refine Sim.lift fun u hu => ?_
  obtain ⟨-, rfl⟩ := slice_head hu
  rw [vhead_vput, vhead_vput]
  refine Sim.exec S K .dwork2 (k := p) hp (fun i => r i / cmax P.mu_j (fabs (r i))) (fun s hs => ?_)
    (V' := nEnv { P with xk := xk, dwork1 := vput hp r P.dwork1, dwork2 := vput hp (fun i => r i / cmax P.mu_j (fabs (r i))) P.dwork2 } w) rfl (by others) ?_
  · have h1 : HoldsV s q.dwork1 (vhead hp (vput hp r P.dwork1)) := (hs .dwork1).head hp
    rw [vhead_vput] at h1
    exact cmd_seqMap (fun v => v / cmax P.mu_j (fabs v)) h1 ((hs .dwork2).head hp).1 (Sim.cross S .dwork2 .dwork1 hp hp) rfl
  have hh : ∀ s : PState F, AHolds (nlen n m p L1C_NESTA_NMEAN) (q.pt fv) s (nEnv { P with xk := xk, dwork1 := vput hp r P.dwork1, dwork2 := vput hp (fun i => r i / cmax P.mu_j (fabs (r i))) P.dwork2 } w) →
      HoldsV s q.dwork1 r ∧ HoldsV s q.dwork2 (fun i => r i / cmax P.mu_j (fabs (r i))) := fun s hs => by
    have h1 : HoldsV s q.dwork1 (vhead hp (vput hp r P.dwork1)) := (hs .dwork1).head hp
    have h2 : HoldsV s q.dwork2 (vhead hp (vput hp (fun i => r i / cmax P.mu_j (fabs (r i))) P.dwork2)) := (hs .dwork2).head hp
    rw [vhead_vput] at h1 h2
    exact ⟨h1, h2⟩
  refine Sim.eval (v := dnrm2 fun i => r i / cmax P.mu_j (fabs (r i))) (fun s hs => cmd_dnrm2 (hh s hs).2) ?_
  refine Sim.eval (v := ddot (fun i => r i / cmax P.mu_j (fabs (r i))) r) (fun s hs => cmd_ddot (hh s hs).2 (hh s hs).1) ?_
  refine Sim.call S H.Wz .dwork2 .gradf (by decide) hp le_rfl (vhead_vput hp _ _).symm rfl
    (fun y z => nEnv { P with xk := xk, dwork1 := vput hp r P.dwork1, dwork2 := vput hp y (vput hp (fun i => r i / cmax P.mu_j (fabs (r i))) P.dwork2), gradf := z } w)
    (fun y z => rfl) (fun y z => (vput_full _ _ _).symm) (by others2) fun u' gradf => ?_
  refine Sim.lift fun d3 hd3 => ?_
  obtain ⟨-, rfl⟩ := writeAt_put hd3
  exact Sim.pure ⟨rfl, rfl⟩

theorem setupM_sim {K : ℕ} (H : NImpl axM ax R Own) (HK : OwnData R Own) (S : ASep (nlen n m p K) (q.pt fv) Own) (bv : Vec F n) (w : Vec F K) (opts : NestaOpts F) :
    Sim (nlen n m p K) (q.pt fv) R Own (l1c_nesta_setupM axM q opts) (nEnv (nestaZero bv) w) (l1c_nesta_setup ax (nestaZero bv) bv opts)
      (fun r o V' => (r = none ∧ o.1 = L1C_INCONSISTENT_ARGUMENTS ∧ V' = nEnv (nestaZero bv : NestaProb F n m p) w) ∨
        (r = some (o.2.1.scal, o.2.2.1, o.2.2.2) ∧ o.1 = L1C_SUCCESS ∧ V' = nEnv o.2.1 w)) := by
  unfold l1c_nesta_setupM l1c_nesta_setup
  have hW : ∀ {l k : ℕ} {c : Option (Ptr → Ptr → Cmd F Unit)} {op : Option (NOp F σ l k)}, NOptImpl R Own c op → c.isNone = op.isNone := by
    intro l k c op h
    cases c <;> cases op <;> first | rfl | exact h.elim
  rw [hW H.Wz, hW H.Wtx, H.hasRx, H.hasRty, H.m, H.p, H.norm_W]
  split
  · exact Sim.pure (Or.inl ⟨rfl, rfl, rfl⟩)
  refine Sim.call S H.Aty .b .Atb (by decide) le_rfl le_rfl rfl rfl
    (fun y z => nEnv { (nestaZero bv : NestaProb F n m p) with b := y, Atb := z } w) (fun y z => (vput_full _ _ _).symm) (fun y z => (vput_full _ _ _).symm) (by others2) fun b Atb => ?_
  refine Sim.map1 S HK (k := m) .Atb .xo le_rfl le_rfl (fun u => u) rfl
    (V' := nEnv { (nestaZero bv : NestaProb F n m p) with b := b, Atb := Atb, xo := Atb } w) (vput_full _ _ _).symm (by others) ?_
  refine Sim.lift fun old ho => ?_
  obtain ⟨hp, rfl⟩ := slice_head ho
  refine Sim.call S H.Wtx .xo .dwork1 (by decide) le_rfl hp rfl rfl
    (fun y z => nEnv { (nestaZero bv : NestaProb F n m p) with b := b, Atb := Atb, xo := y, dwork1 := vput hp z (fun _ => lit 0) } w) (fun y z => (vput_full _ _ _).symm) (fun y z => rfl) (by others2)
    fun xo r => ?_
  refine Sim.lift fun d1 hd1 => ?_
  obtain ⟨-, rfl⟩ := writeAt_put hd1
  refine Sim.lift fun hd hhd => ?_
  obtain ⟨hm, rfl⟩ := slice_head hhd
  refine Sim.lift fun d2 hd2 => ?_
  obtain ⟨-, rfl⟩ := writeAt_put hd2
  refine Sim.lift fun rf hrf => ?_
  obtain ⟨-, rfl⟩ := slice_head hrf
  refine Sim.exec S HK .dwork1 (k := m) hm (fun i => fabs (vhead hm (vput hp r (fun _ => lit 0)) i)) (fun s hs => ?_)
    (V' := nEnv { (nestaZero bv : NestaProb F n m p) with b := b, Atb := Atb, xo := xo, dwork1 := vput hm (fun i => fabs (vhead hm (vput hp r (fun _ => lit 0)) i)) (vput hp r (fun _ => lit 0)) } w)
    rfl (by others) ?_
  · exact cmd_seqMap fabs ((hs .dwork1).head hm) ((hs .dwork1).head hm).1 (NoCross.refl _ _) rfl
  refine Sim.eval (v := vmax (vhead hp (vput hm (fun i => fabs (vhead hm (vput hp r (fun _ => lit 0)) i)) (vput hp r (fun _ => lit 0))))) (fun s hs => cmd_max ((hs .dwork1).head hp)) ?_
  exact Sim.pure (Or.inr ⟨rfl, rfl, rfl⟩)

theorem fifoPushM_sim (S : ASep (nlen n m p L1C_NESTA_NMEAN) (q.pt fv) Own) (K : OwnData R Own) (P : NestaProb F n m p) (fM : FifoM) (f : Fifo F) (hf : FifoRel fv fM f) (v : F) {α β : Type} {g : FifoM → Cmd F α}
    {x : NM σ β} {rel : α → β → ((i : NI) → Vec F (nlen n m p L1C_NESTA_NMEAN i)) → Prop}
    (h : ∀ fM', FifoRel fv fM' (fifoPush f v) → Sim (nlen n m p L1C_NESTA_NMEAN) (q.pt fv) R Own (g fM') (nEnv P (fifoPush f v).f_vals) x rel) :
    Sim (nlen n m p L1C_NESTA_NMEAN) (q.pt fv) R Own (fifoPushM fM v >>= g) (nEnv P f.f_vals) x rel := by
  obtain ⟨h1, h2, h3⟩ := hf
  have key : Sim (nlen n m p L1C_NESTA_NMEAN) (q.pt fv) R Own (exec (seqK (store fM.next v)) >>= fun _ => g ⟨fM.f_vals, if fM.n_total < L1C_NESTA_NMEAN then fM.n_total + 1 else fM.n_total,
      if (fM.next + (1 : Int)).off > (fM.f_vals + ((L1C_NESTA_NMEAN : Int) - 1)).off then fM.f_vals else fM.next + (1 : Int)⟩) (nEnv P f.f_vals) x rel := by
    refine Sim.exec S K .fifo (k := L1C_NESTA_NMEAN) le_rfl (Function.update f.f_vals f.next v) (fun s hs => ?_) (V' := nEnv P (fifoPush f v).f_vals) (vput_full _ _ _).symm (by others) (h _ ?_)
    · have hh := hs .fifo
      have hok : s.mem.Ok (fv + ((f.next : ℕ) : Int)) := hh.1 _ (by omega) (by exact_mod_cast f.next.isLt)
      rw [h3]
      refine ⟨_, cspec_exec (kspec_seq (run_store hok)), ⟨hh.1, fun i => ?_⟩, rfl, fun a ha => ?_, rfl, rfl, rfl, rfl⟩
      · show (s.mem.write _ _).val (fv + ((i : ℕ) : Int)) = _
        rw [Mem.write_val]
        by_cases e : i = f.next
        · rw [e, if_pos rfl, Function.update_self]
        · rw [Function.update_of_ne e, if_neg]
          · exact hh.2 i
          · intro hc
            have := congrArg Ptr.off hc
            simp at this
            exact e (Fin.ext this)
      · show (s.mem.write _ _).val a = _
        rw [Mem.write_val, if_neg]
        rintro rfl
        exact ha (mem_rng_add (by omega) (by exact_mod_cast f.next.isLt))
    · refine ⟨h1, ?_, ?_⟩
      · show _ = if _ then _ else _
        rw [h2]
      · have hn : ((fM.next + (1 : Int)).off > (fM.f_vals + ((L1C_NESTA_NMEAN : Int) - 1)).off) ↔ f.next.val + 1 > L1C_NESTA_NMEAN - 1 := by
          rw [h3, h1]
          simp [L1C_NESTA_NMEAN]
        show (if _ then _ else _) = fv + (((if _ : _ then _ else _ : Fin L1C_NESTA_NMEAN) : ℕ) : Int)
        by_cases e : f.next.val + 1 > L1C_NESTA_NMEAN - 1
        · rw [if_pos (hn.2 e), dif_pos e, h1]
          ext <;> simp
        · rw [if_neg (fun hc => e (hn.1 hc)), dif_neg e, h3]
          ext <;> simp [add_assoc]
  exact key

theorem fifoMeanM_sim {P : NestaProb F n m p} {fM : FifoM} {f : Fifo F} (hf : FifoRel fv fM f) {α β : Type} {g : F → Cmd F α} {x : NM σ β} {rel : α → β → ((i : NI) → Vec F (nlen n m p L1C_NESTA_NMEAN i)) → Prop}
    (h : Sim (nlen n m p L1C_NESTA_NMEAN) (q.pt fv) R Own (g (fifoMean f)) (nEnv P f.f_vals) x rel) : Sim (nlen n m p L1C_NESTA_NMEAN) (q.pt fv) R Own (fifoMeanM fM >>= g) (nEnv P f.f_vals) x rel := by
  have key : Sim (nlen n m p L1C_NESTA_NMEAN) (q.pt fv) R Own (eval (foldUp 0 (L1C_NESTA_NMEAN : Int) (lit 0) fun i mean => do
    let v ← load (fM.f_vals + i)
    pure (mean + v)) >>= fun mean => g (mean / lit fM.n_total)) (nEnv P f.f_vals) x rel := by
    refine Sim.eval (v := dsum f.f_vals) (fun s hs => ?_) ?_
    · rw [hf.1]
      exact cmd_sum (hs .fifo)
    · rw [hf.2.1]
      exact h
  exact key

theorem bodyM_sim (H : NImpl axM ax R Own) (K : OwnData R Own) (S : ASep (nlen n m p L1C_NESTA_NMEAN) (q.pt fv) Own) (k : ℕ) (fM : FifoM) (st : NLoop F n m p) (hf : FifoRel fv fM st.fifo) :
    Sim (nlen n m p L1C_NESTA_NMEAN) (q.pt fv) R Own (nestaBodyM axM q k ⟨st.P.scal, fM⟩) (nEnv st.P st.fifo.f_vals) (nestaBody ax k st)
      (fun r o V' => r.2 = o.2 ∧ r.1.c = o.1.P.scal ∧ FifoRel fv r.1.fifo o.1.fifo ∧ V' = nEnv o.1.P o.1.fifo.f_vals) := by
  unfold nestaBodyM nestaBody
  rw [H.m]
  refine Sim.bind (fevalM_sim H K S st.P st.fifo.f_vals) ?_
  rintro c P V ⟨rfl, rfl⟩
  refine Sim.bind (projectM_y H K S P st.fifo.f_vals) ?_
  rintro - ⟨yk, P1⟩ V ⟨rfl, e1, e2, e3, e4, e5⟩
  refine Sim.map2 S K (k := m) .gradf .gradf_sum .gradf_sum le_rfl le_rfl le_rfl (fun u v => lit (1 / 2) * lit (k + 1) * u + v) rfl
    (V' := nEnv { P1 with yk := yk, gradf_sum := vaxpy (lit (1 / 2) * lit (k + 1)) P1.gradf P1.gradf_sum } st.fifo.f_vals) (vput_full _ _ _).symm (by others) ?_
  have hz := projectM_z H K S { P1 with yk := yk, gradf_sum := vaxpy (lit (1 / 2) * lit (k + 1)) P1.gradf P1.gradf_sum } st.fifo.f_vals
  rw [show NestaProb.scal { P1 with yk := yk, gradf_sum := vaxpy (lit (1 / 2) * lit (k + 1)) P1.gradf P1.gradf_sum } = P.scal from e1] at hz
  refine Sim.bind hz ?_
  rintro - ⟨zk, P2⟩ V ⟨rfl, e6, -⟩
  refine Sim.map2 S K (k := m) .zk .yk .xk le_rfl le_rfl le_rfl (fun u v => lit 2 / lit (k + 3) * u + (lit 1 - lit 2 / lit (k + 3)) * v) rfl
    (V' := nEnv { P2 with zk := zk, xk := vaxpby (lit 2 / lit (k + 3)) zk (lit 1 - lit 2 / lit (k + 3)) P2.yk } st.fifo.f_vals) (vput_full _ _ _).symm (by others) ?_
  refine fifoMeanM_sim hf ?_
  have e7 : P2.scal = P.scal := e6
  have e8 : P.scal.fx = P2.fx := congrArg NScal.fx e7.symm
  have e9 : P.scal.tol_j = P2.tol_j := congrArg NScal.tol_j e7.symm
  refine fifoPushM_sim S K _ fM st.fifo hf _ fun fM' hf' => Sim.pure ⟨?_, e7.symm, ?_, ?_⟩
  · show flt _ _ = flt _ _
    rw [e8, e9]
  · rw [e8] at hf'
    exact hf'
  · rw [e8]

theorem innerM_sim (H : NImpl axM ax R Own) (K : OwnData R Own) (S : ASep (nlen n m p L1C_NESTA_NMEAN) (q.pt fv) Own) (fuel : ℕ) : ∀ (k : ℕ) (fM : FifoM) (st : NLoop F n m p), FifoRel fv fM st.fifo →
    Sim (nlen n m p L1C_NESTA_NMEAN) (q.pt fv) R Own (nestaInnerM axM q fuel k ⟨st.P.scal, fM⟩) (nEnv st.P st.fifo.f_vals) (nestaInner ax fuel k st)
      (fun r o V' => r.c = o.1.P.scal ∧ FifoRel fv r.fifo o.1.fifo ∧ V' = nEnv o.1.P o.1.fifo.f_vals) := by
  induction fuel with
  | zero => exact fun k fM st hf => Sim.pure ⟨rfl, hf, rfl⟩
  | succ fuel ih =>
    intro k fM st hf
    refine Sim.bind (bodyM_sim H K S k fM st hf) ?_
    rintro ⟨⟨c, fM'⟩, stop⟩ ⟨st', stop'⟩ V ⟨e1, e2, e3, rfl⟩
    dsimp only at e1 e2 e3 ⊢
    subst e1 e2
    split
    · exact Sim.pure ⟨rfl, e3, rfl⟩
    · exact ih (k + 1) fM' st' e3

theorem continueM_sim (H : NImpl axM ax R Own) (K : OwnData R Own) (S : ASep (nlen n m p L1C_NESTA_NMEAN) (q.pt fv) Own) (bm bt : F) (fM : FifoM) (hf : fM.f_vals = fv) (P : NestaProb F n m p)
    (w : Vec F L1C_NESTA_NMEAN) :
    Sim (nlen n m p L1C_NESTA_NMEAN) (q.pt fv) R Own (nestaContinueM axM q bm bt ⟨P.scal, fM⟩) (nEnv P w) (nestaContinue ax bm bt P)
      (fun r o V' => r.c = o.1.scal ∧ r.fifo.f_vals = fv ∧ ∃ w', V' = nEnv o.1 w') := by
  unfold nestaContinueM nestaContinue
  rw [H.m]
  dsimp only
  rw [hf]
  refine Sim.exec S K .fifo (k := L1C_NESTA_NMEAN) le_rfl (fun _ => lit 0) (fun s hs => cmd_init (hs .fifo).1 (lit 0)) (V' := nEnv P (fun _ => lit 0)) (vput_full _ _ _).symm (by others) ?_
  refine Sim.exec S K .gradf_sum (k := m) le_rfl (fun _ => lit 0) (fun s hs => cmd_init (hs .gradf_sum).1 (lit 0)) (V' := nEnv { P with gradf_sum := fun _ => lit 0 } (fun _ => lit 0))
    (vput_full _ _ _).symm (by others) ?_
  refine Sim.bind (innerM_sim H K S L1C_NESTA_MAX_INNER_ITER 0 ⟨fv, 0, fv⟩ (nestaReset bm bt P) ⟨rfl, rfl, by ext <;> simp [nestaReset, fifoNew]⟩) ?_
  rintro ⟨c, fM'⟩ ⟨st, k⟩ V ⟨e1, e2, rfl⟩
  refine Sim.map1 S K (k := m) .xk .xo le_rfl le_rfl (fun u => u) rfl (V' := nEnv { st.P with xo := st.P.xk } st.fifo.f_vals) (vput_full _ _ _).symm (by others) ?_
  exact Sim.pure ⟨e1, e2.1, _, rfl⟩

theorem outerM_sim (H : NImpl axM ax R Own) (K : OwnData R Own) (S : ASep (nlen n m p L1C_NESTA_NMEAN) (q.pt fv) Own) (bm bt : F) (fuel : ℕ) : ∀ (iter : Int) (total : ℕ) (fM : FifoM), fM.f_vals = fv →
    ∀ (P : NestaProb F n m p) (w : Vec F L1C_NESTA_NMEAN),
    Sim (nlen n m p L1C_NESTA_NMEAN) (q.pt fv) R Own (nestaOuterM axM q bm bt fuel iter ⟨P.scal, fM⟩) (nEnv P w) (nestaOuter ax bm bt fuel iter total P)
      (fun r o V' => r.fifo.f_vals = fv ∧ ∃ w', V' = nEnv o.1 w') := by
  induction fuel with
  | zero =>
    intro iter total fM hf P w
    unfold nestaOuterM nestaOuter
    split
    · rename_i hi
      exact Sim.need hi (Sim.pure ⟨hf, w, rfl⟩)
    · exact Sim.nub
  | succ fuel ih =>
    intro iter total fM hf P w
    refine Sim.bind (continueM_sim H K S bm bt fM hf P w) ?_
    rintro ⟨c, fM'⟩ ⟨P', k⟩ V ⟨e1, e2, w', rfl⟩
    dsimp only at e1 e2 ⊢
    subst e1
    exact ih (iter + 1) (total + k) fM' e2 P' w'

end L1c
