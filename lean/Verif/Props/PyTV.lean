import Verif.Model.PyTV
import Verif.Props.Options
import Verif.Props.BregBindings
import Verif.Props.BregmanConv

/-!
# TV denoising from Python, from the call to the returned array (`C77`)
-/

namespace L1c
open Prog Scalar Finset

/-- objects that do not exist yet have no references -/
def PyRefs.WF (r : PyRefs) : Prop := ∀ o, r.next ≤ o → r.refs o = 0

section steps
variable {F : Type} [Scalar F] {α β : Type}

/-- `x`, started in memory `s` and interpreter `r`, is defined and ends with `a`, `s'`, `r'` under every schedule of its threads -/
def PySpec (x : PyCmd F α) (s : PState F) (r : PyRefs) (a : α) (s' : PState F) (r' : PyRefs) : Prop := CSpec (x r) s (a, r') s'

theorem PySpec.bind {x : PyCmd F α} {f : α → PyCmd F β} {s s1 s' : PState F} {r r1 r' : PyRefs} {a : α} {b : β}
    (h : PySpec x s r a s1 r1) (h' : PySpec (f a) s1 r1 b s' r') : PySpec (x >>= f) s r b s' r' :=
  CSpec.bind (x := x r) (f := fun p => f p.1 p.2) h h'

theorem PySpec.pure (a : α) (s : PState F) (r : PyRefs) : PySpec (pure a : PyCmd F α) s r a s r := CSpec.done _ _

theorem PySpec.run {c : Cmd F α} {s s' : PState F} {a : α} (h : CSpec c s a s') (r : PyRefs) : PySpec (pyRun c) s r a s' r :=
  CSpec.bind h (CSpec.done _ _)

theorem PySpec.dec {o : ℕ} {r : PyRefs} (h : r.refs o ≠ 0) (s : PState F) :
    PySpec (pyDecC o : PyCmd F Unit) s r () s { r with refs := Function.update r.refs o (r.refs o - 1) } :=
  CSpec.bind (cspec_need h s) (CSpec.done _ _)

theorem PySpec.inc (o : ℕ) (r : PyRefs) (s : PState F) :
    PySpec (pyIncC o : PyCmd F Unit) s r () s { r with refs := Function.update r.refs o (r.refs o + 1) } := CSpec.done _ _

theorem PySpec.new {r : PyRefs} (h : r.oracle r.calls = true) (s : PState F) :
    PySpec (pyNewC : PyCmd F (Option ℕ)) s r (some r.next) s { r with refs := Function.update r.refs r.next 1, next := r.next + 1, calls := r.calls + 1 } := by
  unfold PySpec pyNewC
  rw [if_pos h]; exact CSpec.done _ _

theorem PySpec.new_no {r : PyRefs} (h : r.oracle r.calls = false) (s : PState F) :
    PySpec (pyNewC : PyCmd F (Option ℕ)) s r none s { r with calls := r.calls + 1 } := by
  unfold PySpec pyNewC
  rw [if_neg (by rw [h]; decide)]; exact CSpec.done _ _

/-- the interpreter while the converted array exists -/
def withArr (r : PyRefs) : PyRefs := { r with refs := Function.update r.refs r.next 1, next := r.next + 1, calls := r.calls + 1 }

theorem withArr_dec {r : PyRefs} (hr : r.WF) (s : PState F) : ∃ r', PySpec (pyDecC r.next : PyCmd F Unit) s (withArr r) () s r' ∧ r'.refs = r.refs ∧
    r'.next = r.next + 1 ∧ r'.calls = r.calls + 1 ∧ r'.oracle = r.oracle := by
  refine ⟨_, PySpec.dec (by simp [withArr]) s, ?_, rfl, rfl, rfl⟩
  funext o
  by_cases h : o = r.next
  · subst h; simp [withArr, hr r.next le_rfl]
  · simp [withArr, h]

end steps

section call
variable {F : Type} [Scalar F] {conv : PyVal F → Option NpImg} {args : List (PyVal F)} {kw : List (String × PyVal F)}
variable {f : PyVal F} {mu tol : F} {max_iter jac : Int} {s : PState F} {r : PyRefs}

theorem py_breg_start (hk : (kw.map (·.1)).Nodup) (hg : PyBregGood args kw f mu tol max_iter jac) {img : NpImg} (hc : conv f = some img)
    (ho : r.oracle r.calls = true) {out : PyImgOut F} {s' : PState F} {r' : PyRefs}
    (h : PySpec (py_breg_body r.next img mu tol max_iter jac) s (withArr r) out s' r') : PySpec (py_breg_call conv args kw) s r out s' r' := by
  unfold py_breg_call
  rw [(C76_breg hk f mu tol max_iter jac).2 hg]
  dsimp only
  rw [hc]
  exact PySpec.bind (PySpec.new ho s) h

/-- **C77**: what `breg_anistropic_TV(f, …)` does when its arguments fit, `f` is an array of at least 3 by 3 numbers whose size fits an `int`,
and its two buffers are allocated: it is defined, changes nothing of the caller's, frees what it allocated, and either raises an exception,
which happens exactly when memory runs out and leaves no reference behind, or returns a new array of the shape of `f` holding what the library
computes for that image.  The number of iterations is `max_iter` unless the stopping test held. -/
theorem C77_outcome_partial (hw : s.WF) (hr : r.WF) (hk : (kw.map (·.1)).Nodup) (hg : PyBregGood args kw f mu tol max_iter jac) {n m : ℕ} {p : Ptr}
    (hc : conv f = some ⟨2, n, m, p⟩) (hn : 3 ≤ n) (hm : 3 ≤ m) (hfit : FitsInt ((n : Int) * m)) {v : ℕ → F} (hf : HoldsBuf s.mem p (n * m) v)
    (hmax : max_iter < INT_MAX) (hj : jac < INT_MAX) (h0 : s.oracle s.calls = true) (h1 : s.oracle (s.calls + 1) = true) :
    ∃ out s' r', PySpec (py_breg_call conv args kw) s r out s' r' ∧ s'.live = s.live ∧ s'.mem.len = s.mem.len ∧
      (∀ q : Ptr, q.blk < s.next → s'.mem.val q = s.mem.val q) ∧
      ((∃ kind, out = .exc kind ∧ r'.refs = r.refs ∧
          (r.oracle r.calls = false ∨ r.oracle (r.calls + 1) = false ∨ ∃ k < 8, s.oracle (s.calls + 2 + k) = false)) ∨
       ∃ o data, out = .ret o n m data ∧ r.refs o = 0 ∧ r'.refs = Function.update r.refs o 2 ∧
         r.oracle r.calls = true ∧ r.oracle (r.calls + 1) = true ∧ (∀ k < 8, s.oracle (s.calls + 2 + k) = true) ∧
         LibraryResult n m mu tol max_iter jac v data ∧
         ∃ K ≤ max_iter.toNat, (K = max_iter.toNat ∨ 0 < K ∧ bregBrk n m mu (lit 2 * mu) tol jac.toNat (rowImg m v) (K - 1) = true) ∧
           ∀ i < n, ∀ j < m, data[i * m + j]? = some ((bregIter n m mu (lit 2 * mu) jac.toNat (rowImg m v) K).u i j)) := by
  cases ho : r.oracle r.calls with
  | false =>
    refine ⟨.exc "RuntimeError", s, { r with calls := r.calls + 1 }, ?_, rfl, rfl, fun _ _ => rfl, Or.inl ⟨_, rfl, rfl, Or.inl rfl⟩⟩
    unfold py_breg_call
    rw [(C76_breg hk f mu tol max_iter jac).2 hg]
    dsimp only
    rw [hc]
    exact PySpec.bind (PySpec.new_no ho s) (PySpec.pure _ _ _)
  | true =>
  obtain ⟨c1, c2⟩ := toCInt_pair hn hm hfit
  obtain ⟨a1, a2, s3, st, i, s4, s5, s6, g1, g2, g3, g4, g5, g6, g7, g8, g9⟩ := denoise_core (mu := mu) (tol := tol) hw hn hm hfit hf h0 h1 hmax hj
  have hnm : ((n : Int) * m).toNat = n * m := by rw [← Int.natCast_mul]; rfl
  have hrun : ∀ {out : PyImgOut F} {r' : PyRefs}, PySpec (if st ≠ 0 then do
          pyRun (Cmd.freeC (some ⟨s.next, 0⟩))
          pyRun (Cmd.freeC (some ⟨s.next + 1, 0⟩))
          pyDecC r.next
          pure (.exc "MemoryError")
        else do
          let out ← pyNewC
          match out with
          | none => do
            pyRun (Cmd.freeC (some ⟨s.next, 0⟩))
            pyRun (Cmd.freeC (some ⟨s.next + 1, 0⟩))
            pyDecC r.next
            pure (.exc "MemoryError")
          | some out => do
            let data ← pyRun (readBuf ⟨s.next + 1, 0⟩ (n * m))
            pyDecC r.next
            pyRun (Cmd.freeC (some ⟨s.next, 0⟩))
            pyRun (Cmd.freeC (some ⟨s.next + 1, 0⟩))
            pyIncC out
            pure (.ret out n m data)) s4 (withArr r) out s6 r' → PySpec (py_breg_call conv args kw) s r out s6 r' := by
    intro out r' h
    refine py_breg_start hk hg hc ho ?_
    unfold py_breg_body
    rw [if_neg (fun h => h rfl)]
    dsimp only
    rw [c1, c2, if_neg (by omega)]
    refine PySpec.bind (PySpec.run (cspec_need hfit s) _) ?_
    refine PySpec.bind (PySpec.run (cspec_calloc _ s) _) ?_
    refine PySpec.bind (PySpec.run (cspec_calloc _ _) _) ?_
    rw [a1, a2]
    dsimp only
    refine PySpec.bind (PySpec.run g1 _) ?_
    refine PySpec.bind (PySpec.run g2 _) ?_
    rw [hnm]
    exact h
  rcases g9 with ⟨rfl, g9⟩ | ⟨rfl, g9, K, g10, g10', g11, g12⟩
  · obtain ⟨r', d1, d2, -⟩ := withArr_dec hr s6
    refine ⟨.exc "MemoryError", s6, r', hrun ?_, g6, g7, g8, Or.inl ⟨_, rfl, d2, Or.inr (Or.inr g9)⟩⟩
    rw [if_pos (by unfold L1C_OUT_OF_MEMORY; norm_num)]
    exact PySpec.bind (PySpec.run (cspec_free g4) _) (PySpec.bind (PySpec.run (cspec_free g5) _) (PySpec.bind d1 (PySpec.pure _ _ _)))
  cases ho' : r.oracle (r.calls + 1) with
  | false =>
    have hne : ({ withArr r with calls := r.calls + 2 } : PyRefs).refs r.next ≠ 0 := by simp [withArr]
    refine ⟨.exc "MemoryError", s6, ?_, hrun ?_, g6, g7, g8, Or.inl ⟨_, rfl, ?_, Or.inr (Or.inl rfl)⟩⟩
    · exact { r with refs := Function.update (Function.update r.refs r.next 1) r.next 0, next := r.next + 1, calls := r.calls + 2 }
    · rw [if_neg (by norm_num)]
      refine PySpec.bind (PySpec.new_no (r := withArr r) ho' s4) ?_
      refine PySpec.bind (PySpec.run (cspec_free g4) _) (PySpec.bind (PySpec.run (cspec_free g5) _) (PySpec.bind (PySpec.dec hne _) ?_))
      have e : Function.update r.refs r.next 1 r.next = 1 := Function.update_self ..
      simp only [withArr, e, Nat.sub_self]
      exact PySpec.pure (F := F) _ _ _
    · funext o
      by_cases h : o = r.next
      · subst h; simp [hr r.next le_rfl]
      · simp [h]
  | true =>
    refine ⟨.ret (r.next + 1) n m (bufList s4 ⟨s.next + 1, 0⟩ (n * m)), s6, ?_, hrun ?_, g6, g7, g8,
      Or.inr ⟨_, _, rfl, hr _ (by omega), ?_, rfl, rfl, g9, g11, K, g10, g10', g12⟩⟩
    · exact { r with refs := Function.update (Function.update (Function.update (Function.update r.refs r.next 1) (r.next + 1) 1) r.next 0) (r.next + 1) 2, next := r.next + 1 + 1, calls := r.calls + 1 + 1 }
    · rw [if_neg (by norm_num)]
      refine PySpec.bind (PySpec.new (r := withArr r) ho' s4) ?_
      refine PySpec.bind (PySpec.run (cspec_readBuf g3) _) ?_
      refine PySpec.bind (PySpec.dec (by simp [withArr]) _) ?_
      refine PySpec.bind (PySpec.run (cspec_free g4) _) (PySpec.bind (PySpec.run (cspec_free g5) _) (PySpec.bind (PySpec.inc _ _ _) ?_))
      have e : (Function.update (withArr r).refs (withArr r).next 1) r.next = 1 := by simp [withArr]
      simp only [e]
      simp only [withArr, Nat.sub_self]
      rw [Function.update_of_ne (show r.next + 1 ≠ r.next by omega), Function.update_self]
      exact PySpec.pure _ _ _
    · funext o
      by_cases h : o = r.next + 1
      · subst h; simp
      · by_cases h' : o = r.next
        · subst h'; simp [hr r.next le_rfl]
        · simp [h, h']

/-- **C77**, references, false: the returned array has two references although only the caller refers to it, so it is never released. -/
theorem C77_references_false (hw : s.WF) (hr : r.WF) (hk : (kw.map (·.1)).Nodup) (hg : PyBregGood args kw f mu tol max_iter jac) {n m : ℕ} {p : Ptr}
    (hc : conv f = some ⟨2, n, m, p⟩) (hn : 3 ≤ n) (hm : 3 ≤ m) (hfit : FitsInt ((n : Int) * m)) {v : ℕ → F} (hf : HoldsBuf s.mem p (n * m) v)
    (hmax : max_iter < INT_MAX) (hj : jac < INT_MAX) (h0 : ∀ k < 10, s.oracle (s.calls + k) = true) (h1 : ∀ k < 2, r.oracle (r.calls + k) = true) :
    ∃ o data s' r', PySpec (py_breg_call conv args kw) s r (.ret o n m data) s' r' ∧ r.refs o = 0 ∧ r'.refs o = 2 ∧ ∀ o' ≠ o, r'.refs o' = r.refs o' := by
  obtain ⟨out, s', r', g1, -, -, -, ⟨kind, -, -, e | e | ⟨k, hk', e⟩⟩ | ⟨o, data, rfl, g2, g3, -⟩⟩ :=
    C77_outcome_partial hw hr hk hg hc hn hm hfit hf hmax hj (h0 0 (by norm_num)) (h0 1 (by norm_num))
  · exact absurd ((h1 0 (by norm_num)).symm.trans e) (by decide)
  · exact absurd ((h1 1 (by norm_num)).symm.trans e) (by decide)
  · rw [add_assoc] at e
    exact absurd ((h0 (2 + k) (by omega)).symm.trans e) (by decide)
  · exact ⟨o, data, s', r', g1, g2, by rw [g3, Function.update_self], fun o' h => by rw [g3, Function.update_of_ne h]⟩

/-- **C77**, memory, false: when exactly one of the two buffers can be allocated the call raises an exception and that buffer is never released. -/
theorem C77_leak_false (hw : s.WF) (hr : r.WF) (hk : (kw.map (·.1)).Nodup) (hg : PyBregGood args kw f mu tol max_iter jac) {n m : ℕ} {p : Ptr}
    (hc : conv f = some ⟨2, n, m, p⟩) (hn : 3 ≤ n) (hm : 3 ≤ m) (hfit : FitsInt ((n : Int) * m)) (ho : r.oracle r.calls = true)
    (h : s.oracle s.calls ≠ s.oracle (s.calls + 1)) :
    ∃ s' r', PySpec (py_breg_call conv args kw) s r (.exc "MemoryError") s' r' ∧ r'.refs = r.refs ∧ s.live s.next = false ∧ s'.live s.next = true := by
  obtain ⟨c1, c2⟩ := toCInt_pair hn hm hfit
  have hpos : (0 : Int) ≤ (n : Int) * m := by positivity
  obtain ⟨r', d1, d2, -⟩ := withArr_dec hr ((s.calloc ((n : Int) * m)).2.calloc ((n : Int) * m)).2
  refine ⟨_, r', py_breg_start hk hg hc ho (s' := ((s.calloc ((n : Int) * m)).2.calloc ((n : Int) * m)).2) ?_, d2, (hw _ le_rfl).1, ?_⟩
  · unfold py_breg_body
    rw [if_neg (fun h => h rfl)]
    dsimp only
    rw [c1, c2, if_neg (by omega)]
    refine PySpec.bind (PySpec.run (cspec_need hfit s) _) ?_
    refine PySpec.bind (PySpec.run (cspec_calloc _ s) _) ?_
    refine PySpec.bind (PySpec.run (cspec_calloc _ _) _) ?_
    cases h0 : s.oracle s.calls
    · rw [calloc_no h0] at d1 ⊢
      exact PySpec.bind d1 (PySpec.pure _ _ _)
    · rw [h0] at h
      have h1 : (s.calloc ((n : Int) * m)).2.oracle (s.calloc ((n : Int) * m)).2.calls = false := by
        rw [calloc_ok h0 hpos]; exact Bool.eq_false_iff.2 h.symm
      rw [calloc_no h1] at d1 ⊢
      cases (s.calloc ((n : Int) * m)).1 <;> exact PySpec.bind d1 (PySpec.pure _ _ _)
  · cases h0 : s.oracle s.calls
    · rw [h0] at h
      have h1 : (s.calloc ((n : Int) * m)).2.oracle (s.calloc ((n : Int) * m)).2.calls = true := by
        rw [calloc_no h0]; exact (Bool.eq_true_of_not_eq_false fun e => h e.symm)
      rw [calloc_ok h1 hpos, calloc_no h0]
      show Function.update s.live s.next true s.next = true
      rw [Function.update_self]
    · rw [h0] at h
      rw [calloc_no (s := (s.calloc ((n : Int) * m)).2) (by rw [calloc_ok h0 hpos]; exact (Bool.eq_false_iff.2 h.symm)), calloc_ok h0 hpos]
      show Function.update s.live s.next true s.next = true
      rw [Function.update_self]

/-- **C77**: a call whose arguments do not fit, or whose image is not a two-dimensional array of at least 3 by 3 numbers, raises an exception;
memory is unchanged and no reference is left behind. -/
theorem C77_rejects (hr : r.WF) (hk : (kw.map (·.1)).Nodup)
    (h : (∀ f mu tol max_iter jac, ¬ PyBregGood args kw f mu tol max_iter jac) ∨
      ∃ f, args[0]? = some f ∧ ∀ n m p, conv f = some ⟨2, n, m, p⟩ → n < 3 ∨ m < 3)
    (hsz : ∀ f img, args[0]? = some f → conv f = some img → (img.dim0 : Int) ≤ INT_MAX ∧ (img.dim1 : Int) ≤ INT_MAX) :
    ∃ kind r', PySpec (py_breg_call conv args kw) s r (.exc kind) s r' ∧ r'.refs = r.refs := by
  cases ha : py_breg_args args kw with
  | none =>
    refine ⟨"TypeError", r, ?_, rfl⟩
    unfold py_breg_call
    rw [ha]
    exact PySpec.pure _ _ _
  | some q =>
    obtain ⟨f, mu, tol, max_iter, jac⟩ := q
    have hg := (C76_breg hk f mu tol max_iter jac).1 ha
    rcases h with h | ⟨f', hf', h⟩
    · exact absurd hg (h _ _ _ _ _)
    have := hg.f.symm.trans hf'
    cases this
    cases hc : conv f with
    | none =>
      refine ⟨"RuntimeError", r, ?_, rfl⟩
      unfold py_breg_call
      rw [ha]
      dsimp only
      rw [hc]
      exact PySpec.pure _ _ _
    | some img =>
      cases ho : r.oracle r.calls with
      | false =>
        refine ⟨"RuntimeError", { r with calls := r.calls + 1 }, ?_, rfl⟩
        unfold py_breg_call
        rw [ha]
        dsimp only
        rw [hc]
        exact PySpec.bind (PySpec.new_no ho s) (PySpec.pure _ _ _)
      | true =>
        obtain ⟨r', d1, d2, -⟩ := withArr_dec hr s
        obtain ⟨nd, n, m, p⟩ := img
        obtain ⟨z1, z2⟩ : (n : Int) ≤ INT_MAX ∧ (m : Int) ≤ INT_MAX := hsz f _ hg.f hc
        by_cases h2 : nd = 2
        · subst h2
          refine ⟨"ValueError", r', py_breg_start hk hg hc ho ?_, d2⟩
          unfold py_breg_body
          rw [if_neg (fun h => h rfl)]
          dsimp only
          rw [toCInt_small z1, toCInt_small z2, if_pos (by rcases h n m p hc with h | h; exacts [Or.inl (by omega), Or.inr (by omega)])]
          exact PySpec.bind d1 (PySpec.pure _ _ _)
        · refine ⟨"IndexError", r', py_breg_start hk hg hc ho ?_, d2⟩
          unfold py_breg_body
          rw [if_pos h2]
          exact PySpec.bind d1 (PySpec.pure _ _ _)

end call

section converges
variable {n m : ℕ} {mu : ℝ} {jac : Int} {v : ℕ → ℝ}

/-- `breg_anistropic_TV(f, …)` can be called: the arguments fit, `f` is an `n` by `m` array with the numbers `v`, and there is memory -/
structure PyTVReady (conv : PyVal Dbl → Option NpImg) (args : List (PyVal Dbl)) (kw : List (String × PyVal Dbl)) (s : PState Dbl) (r : PyRefs) (n m : ℕ)
    (v : ℕ → ℝ) (mu tol : Dbl) (max_iter jac : Int) : Prop where
  wf : s.WF
  rwf : r.WF
  nodup : (kw.map (·.1)).Nodup
  good : ∃ f p, PyBregGood args kw f mu tol max_iter jac ∧ conv f = some ⟨2, n, m, p⟩ ∧ HoldsBuf s.mem p (n * m) fun k => Dbl.fin (v k)
  mem : ∀ k < 10, s.oracle (s.calls + k) = true
  pymem : ∀ k < 2, r.oracle (r.calls + k) = true

/-- **C77**: the arrays that Python gets for an image and a weight `mu > 0` with `max_jac_iter ≥ 10` are elements of a sequence `u 0, u 1, …` that
does not depend on `max_iter` and `tol`; with `tol ≤ 0` the call with `max_iter = K` returns `u K`.  There is exactly one best image `us` (the
objective grows quadratically around it), the squared errors of `u 1, u 2, …` have a sum of at most `tvBudget`, and `u K` converges to `us`. -/
theorem C77_converges (hn : 3 ≤ n) (hm : 3 ≤ m) (hfit : FitsInt ((n : Int) * m)) (hmu : 0 < mu) (h10 : 10 ≤ jac) (hj : jac < INT_MAX) :
    ∃ (us : Img) (u : ℕ → Img),
      (∀ w, tvObj n m mu (rowImg m v) us + mu / 2 * dist2 n m w us ≤ tvObj n m mu (rowImg m v) w) ∧
      (∀ conv args kw s r tol max_iter, max_iter < INT_MAX → PyTVReady conv args kw s r n m v (Dbl.fin mu) tol max_iter jac →
        ∃ o data s' r' K, PySpec (py_breg_call conv args kw) s r (.ret o n m data) s' r' ∧ s'.live = s.live ∧
          (∀ i < n, ∀ j < m, data[i * m + j]? = some (Dbl.fin (u K i j))) ∧ K ≤ max_iter.toNat ∧ (∀ t ≤ 0, tol = Dbl.fin t → K = max_iter.toNat)) ∧
      (∀ K, ∑ k ∈ range K, dist2 n m (u (k + 1)) us ≤ tvBudget n m mu (rowImg m v)) ∧
      Filter.Tendsto (fun K => dist2 n m (u K) us) Filter.atTop (nhds 0) := by
  obtain ⟨us, bx, bY, hS⟩ := saddle_exists n m hmu (by linarith : 0 < 2 * mu) (rowImg m v)
  have hsum : ∀ K, ∑ k ∈ range K, dist2 n m (bregIterR n m mu (2 * mu) jac.toNat (rowImg m v) (k + 1)).u us ≤ tvBudget n m mu (rowImg m v) := fun K =>
    (err_sum hmu (by omega) hS K).trans (start_bound hmu hS)
  refine ⟨us, fun K => (bregIterR n m mu (2 * mu) jac.toNat (rowImg m v) K).u, hS.strong, ?_, hsum, ?_⟩
  · rintro conv args kw s r tol max_iter hmax ⟨hw, hr, hk, ⟨f, p, hg, hc, hf⟩, h0, h1⟩
    obtain ⟨out, s', r', g1, gl, -, -, ⟨kind, -, -, e | e | ⟨k, hk', e⟩⟩ | ⟨o, data, rfl, g2, g3, -, -, -, -, K, g4, g5, g6⟩⟩ :=
      C77_outcome_partial hw hr hk hg hc hn hm hfit hf hmax hj (h0 0 (by norm_num)) (h0 1 (by norm_num))
    · exact absurd ((h1 0 (by norm_num)).symm.trans e) (by decide)
    · exact absurd ((h1 1 (by norm_num)).symm.trans e) (by decide)
    · rw [add_assoc] at e
      exact absurd ((h0 (2 + k) (by omega)).symm.trans e) (by decide)
    have e2 : (lit 2 : Dbl) * Dbl.fin mu = Dbl.fin (2 * mu) := by rw [Dbl.lit_eq, Dbl.fin_mul]; norm_num
    rw [e2] at g6
    have hit := iter_fin (n := n) (m := m) (lam := 2 * mu) (by omega) (by omega) hmu (by linarith) jac.toNat (f := rowImg m v)
      (fF := rowImg m fun k => Dbl.fin (v k)) (fun _ _ _ _ => rfl) K
    refine ⟨o, data, s', r', K, g1, gl, fun i hi j hj => by rw [g6 i hi j hj, hit.u i hi j hj], g4, ?_⟩
    rintro t ht rfl
    rcases g5 with g5 | g5
    · exact g5
    · have g5 := g5.2
      unfold bregBrk relErrF at g5
      rw [not_lt_nonpos _ ht] at g5
      cases g5
  · rw [← Filter.tendsto_add_atTop_iff_nat 1]
    exact (summable_of_sum_range_le (fun k => normSq2_nonneg n m _) hsum).tendsto_atTop_zero

/-- the call `breg_anistropic_TV(f, 1, tol=0, max_iter=…, max_jac_iter=10)` on the 3 by 4 ramp -/
def exTvKw (K : Int) : List (String × PyVal Dbl) := [("max_jac_iter", ⟨some (.inl 10), none, none⟩), ("tol", ⟨some (.inl 0), none, none⟩), ("max_iter", ⟨some (.inl K), none, none⟩)]

theorem exTv_ready {K : Int} (hK : FitsInt K) : PyTVReady (fun _ => some ⟨2, 3, 4, ⟨1, 0⟩⟩) [⟨none, none, none⟩, ⟨some (.inl 1), none, none⟩] (exTvKw K) (demoP 3 4)
    ⟨fun _ => 0, 0, 0, fun _ => true⟩ 3 4 (fun k => (k : ℝ)) (Dbl.fin 1) (Dbl.fin 0) K 10 := by
  refine ⟨(demoP_ok 3 4).1, fun _ _ => rfl, by simp [exTvKw], ⟨⟨none, none, none⟩, ⟨1, 0⟩, ?_, rfl, demoP_buf 3 4⟩, fun _ _ => rfl, fun _ _ => rfl⟩
  refine ⟨⟨by decide, by decide, ?_⟩, rfl, Or.inl ⟨_, Or.inl rfl, Or.inr ⟨1, rfl, ?_⟩⟩, Or.inl ⟨⟨some (.inl 0), none, none⟩, Or.inr ⟨le_rfl, ?_⟩, Or.inr ⟨0, rfl, ?_⟩⟩,
    Or.inl ⟨⟨some (.inl K), none, none⟩, Or.inr ⟨by decide, ?_⟩, rfl, hK⟩, Or.inl ⟨⟨some (.inl 10), none, none⟩, Or.inr ⟨by decide, ?_⟩, rfl, ?_⟩⟩
  · intro p hp
    simp only [exTvKw, List.mem_cons, List.not_mem_nil, or_false] at hp
    rcases hp with rfl | rfl | rfl
    · exact ⟨3, rfl, by decide⟩
    · exact ⟨1, rfl, by decide⟩
    · exact ⟨2, rfl, by decide⟩
  · simp [Dbl.lit_eq]
  · simp [exTvKw]
  · simp [Dbl.lit_eq]
  · simp [exTvKw]
  · simp [exTvKw]
  · unfold FitsInt INT_MAX INT_MIN; norm_num

example : ∃ (us : Img), ∀ eps > 0, ∃ K0 : ℕ, ∀ K : ℕ, K0 ≤ K → (K : Int) < INT_MAX →
    ∃ o data s' r' w, PySpec (py_breg_call (fun _ => some ⟨2, 3, 4, ⟨1, 0⟩⟩) [⟨none, none, none⟩, ⟨some (.inl 1), none, none⟩] (exTvKw K)) (demoP 3 4)
      ⟨fun _ => 0, 0, 0, fun _ => true⟩ (.ret o (3 : ℕ) (4 : ℕ) data) s' r' ∧ (∀ i < 3, ∀ j < 4, data[i * 4 + j]? = some (Dbl.fin (w i j))) ∧ dist2 3 4 w us < eps := by
  obtain ⟨us, u, -, h, -, hlim⟩ := C77_converges (n := 3) (m := 4) (mu := 1) (jac := 10) (v := fun k => (k : ℝ)) (by norm_num) (by norm_num)
    (by unfold FitsInt INT_MAX INT_MIN; norm_num) one_pos le_rfl (by unfold INT_MAX; norm_num)
  refine ⟨us, fun eps he => ?_⟩
  obtain ⟨K0, hK0⟩ := Filter.eventually_atTop.1 (hlim.eventually_lt_const he)
  refine ⟨K0, fun K hK hmax => ?_⟩
  obtain ⟨o, data, s', r', K', g1, -, g2, -, g3⟩ := h _ _ _ _ _ _ K hmax (exTv_ready (by unfold FitsInt; unfold INT_MAX INT_MIN at *; omega))
  have e := g3 0 le_rfl rfl
  rw [Int.toNat_natCast] at e
  subst e
  exact ⟨o, data, s', r', _, g1, g2, hK0 _ hK⟩

end converges

/-- `C77_references_false` and `C77_leak_false` on the same call, `C77_rejects` on a call with no array. -/
example : ∃ o data s' r', PySpec (py_breg_call (fun _ => some ⟨2, 3, 4, ⟨1, 0⟩⟩) [⟨none, none, none⟩, ⟨some (.inl 1), none, none⟩] (exTvKw 5)) (demoP 3 4)
    ⟨fun _ => 0, 0, 0, fun _ => true⟩ (.ret o (3 : ℕ) (4 : ℕ) data) s' r' ∧ r'.refs o = 2 := by
  obtain ⟨hw, hr, hk, ⟨f, p, hg, hc, hf⟩, h0, h1⟩ := exTv_ready (K := 5) (by unfold FitsInt INT_MAX INT_MIN; norm_num)
  obtain ⟨o, data, s', r', h, -, h2, -⟩ := C77_references_false (conv := fun _ => some ⟨2, 3, 4, ⟨1, 0⟩⟩) (n := 3) (m := 4) hw hr hk hg hc (by norm_num) (by norm_num) (by unfold FitsInt INT_MAX INT_MIN; norm_num) hf
    (by unfold INT_MAX; norm_num) (by unfold INT_MAX; norm_num) h0 h1
  exact ⟨o, data, s', r', h, h2⟩

example : ∃ s' r', PySpec (py_breg_call (fun _ => some ⟨2, 3, 4, ⟨1, 0⟩⟩) [⟨none, none, none⟩, ⟨some (.inl 1), none, none⟩] (exTvKw 5))
    { demoP 3 4 with oracle := fun k => k == 1 } ⟨fun _ => 0, 0, 0, fun _ => true⟩ (.exc "MemoryError") s' r' ∧ s'.live 2 = true := by
  obtain ⟨hw, hr, hk, ⟨f, p, hg, hc, hf⟩, -, h1⟩ := exTv_ready (K := 5) (by unfold FitsInt INT_MAX INT_MIN; norm_num)
  obtain ⟨s', r', h, -, -, h2⟩ := C77_leak_false (conv := fun _ => some ⟨2, 3, 4, ⟨1, 0⟩⟩) (n := 3) (m := 4) (s := { demoP 3 4 with oracle := fun k => k == 1 }) hw hr hk hg hc (by norm_num) (by norm_num)
    (by unfold FitsInt INT_MAX INT_MIN; norm_num) rfl (by decide)
  exact ⟨s', r', h, h2⟩

example : ∃ kind r', PySpec (py_breg_call (fun _ => none) [⟨none, none, none⟩] []) (demoP 3 4) ⟨fun _ => 0, 0, 0, fun _ => true⟩ (.exc kind) (demoP 3 4) r' :=
  let ⟨kind, r', h, _⟩ := C77_rejects (args := [⟨none, none, none⟩]) (kw := []) (conv := fun _ => none) (s := demoP 3 4) (r := ⟨fun _ => 0, 0, 0, fun _ => true⟩)
    (fun _ _ => rfl) List.nodup_nil (Or.inr ⟨⟨none, none, none⟩, rfl, fun _ _ _ h => by cases h⟩) (fun _ _ _ h => by cases h)
  ⟨kind, r', h⟩

end L1c
