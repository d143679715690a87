import Verif.Model.CvPool
import Verif.Props.Splits

/-!
# C94, C95: cross-validation in parallel, and seeds
-/

namespace Irt

variable {Gen R : Type}

/-- Jobs that do not use random numbers: `f` gives their results. -/
theorem runJobs_deterministic {D : Type} (f : D → Except PyErr R) (ds : List D) (g : Gen) :
    runJobs (ds.map fun d => (fun g => (f d, g) : CvJob Gen R)) g = (ds.mapM f, (runJobs (ds.map fun d => (fun g => (f d, g) : CvJob Gen R)) g).2)
      ∧ (runJobs (ds.map fun d => (fun g => (f d, g) : CvJob Gen R)) g).2 = g := by
  induction ds with
  | nil => exact ⟨rfl, rfl⟩
  | cons d ds ih =>
    simp only [List.map_cons, runJobs, List.mapM_cons]
    cases hd : f d with
    | error e => exact ⟨rfl, rfl⟩
    | ok r =>
      simp only [bind_ok]
      obtain ⟨h1, h2⟩ := ih
      cases hm : ds.mapM f with
      | error e =>
        rw [hm] at h1
        rw [h1]
        exact ⟨rfl, h2⟩
      | ok rs =>
        rw [hm] at h1
        rw [h1]
        exact ⟨rfl, h2⟩

theorem blocks_map {α β : Type} (f : α → β) (k : ℕ) (xs : List α) : blocks k (xs.map f) = (blocks k xs).map (List.map f) := by
  induction xs using blocks.induct (k := k) with
  | case1 => simp [blocks]
  | case2 x xs ih =>
    rw [List.map_cons, blocks, blocks, List.map_cons, ← List.map_drop, ih]
    simp [List.map_take]

theorem poolRun_deterministic {D : Type} (f : D → Except PyErr R) (worker : ℕ → ℕ) (cs : List (List D)) (k : ℕ) (gens : ℕ → Gen) :
    poolRun worker (cs.map (List.map fun d => (fun g => (f d, g) : CvJob Gen R))) k gens = cs.map fun c => c.mapM f := by
  induction cs generalizing k gens with
  | nil => rfl
  | cons c cs ih =>
    rw [List.map_cons, poolRun, ih, List.map_cons, (runJobs_deterministic f c _).1]

theorem mapM_flatten_ok {D : Type} (f : D → Except PyErr R) (cs : List (List D)) (parts : List (List R))
    (h : (cs.map fun c => c.mapM f).mapM id = .ok parts) : cs.flatten.mapM f = .ok parts.flatten := by
  induction cs generalizing parts with
  | nil =>
    simp only [List.map_nil, List.mapM_nil, pure, Except.pure, Except.ok.injEq] at h
    subst h
    rfl
  | cons c cs ih =>
    rw [List.map_cons, List.mapM_cons] at h
    simp only [id] at h
    cases hc : c.mapM f with
    | error e => rw [hc] at h; cases h
    | ok r =>
      rw [hc] at h
      simp only [bind_ok] at h
      cases hr : (cs.map fun c => c.mapM f).mapM id with
      | error e => rw [hr] at h; cases h
      | ok rs =>
        rw [hr] at h
        simp only [bind_ok, pure, Except.pure, Except.ok.injEq] at h
        subst h
        rw [List.flatten_cons, List.mapM_append, hc, ih rs hr]
        rfl

theorem poolAttempt_threads (env : PoolEnv Gen) (n : ℤ) (jobs : List (CvJob Gen R)) (threads : ℕ) :
    (poolAttempt env n jobs threads).2 = threads := by
  unfold poolAttempt
  simp only
  split <;> rfl

/-- C94: if the fits use no random numbers, running them in a pool gives what running them one after the other gives, results
or exception, in the order of the combinations, for every number of cores (also invalid ones), every distribution of the
work and every failure of the pool. The number of torch threads is afterwards what it was before. -/
theorem C94_same_as_sequential {D : Type} (f : D → Except PyErr R) (ds : List D) (env : PoolEnv Gen) (cores : Option ℤ) (threads : ℕ)
    (g : Gen) :
    runMultiprocessing env cores (ds.map fun d => (fun g => (f d, g) : CvJob Gen R)) threads g = (ds.mapM f, g, threads) := by
  have hseq := runJobs_deterministic (Gen := Gen) f ds g
  unfold runMultiprocessing
  generalize cores.getD _ = n
  have hth := poolAttempt_threads env n (ds.map fun d => (fun g => (f d, g) : CvJob Gen R)) threads
  cases hi : (poolAttempt env n (ds.map fun d => (fun g => (f d, g) : CvJob Gen R)) threads).1 with
  | error e =>
    simp only [hi, hth, hseq.2]
    rw [hseq.1]
  | ok rs =>
    simp only [hi, hth]
    suffices ds.mapM f = .ok rs by rw [this]
    have h := hi
    unfold poolAttempt at h
    simp only at h
    split at h
    · cases h
    · simp only at h
      split at h
      · cases h
      · split at h
        · cases h
        · simp only [poolStarmap] at h
          rw [blocks_map, poolRun_deterministic] at h
          cases hp : ((blocks (((ds.map fun d => (fun g => (f d, g) : CvJob Gen R)).length + 4 * n.toNat - 1) / (4 * n.toNat) - 1)
              ds).map fun c => c.mapM f).mapM id with
          | error e => rw [hp] at h; cases h
          | ok parts =>
            rw [hp] at h
            simp only [bind_ok, pure, Except.pure, Except.ok.injEq] at h
            subst h
            have := mapM_flatten_ok f _ parts hp
            rwa [blocks_flatten] at this

/-- C94: `cross_validation` on the processor, with or without multiprocessing, gives the table of the sequential computation,
if the fits use no random numbers. -/
theorem C94_table {Model Row : Type} (P : CvProcedure Model Row) (m : Model) (env : PoolEnv Gen) (cuda : Bool) (data : List Row)
    (folds : ℤ) (grid : List (String × List PyVal)) (kwargs : PyDict) (cores : Option ℤ) (multiprocessing : Bool)
    (perm : List ℕ) (threads : ℕ) (g : Gen) :
    crossValidationRun env cuda (fun fs d g => (cvCombination P m fs d, g)) data folds grid kwargs "cpu" cores multiprocessing
        perm threads g
      = crossValidation P m data folds grid kwargs perm := by
  unfold crossValidationRun crossValidation
  rw [if_neg (by simp)]
  cases hfs : cvFolds data folds perm with
  | error e => rfl
  | ok fs =>
    simp only [bind_ok]
    have h1 := C94_same_as_sequential (cvCombination P m fs) (createParamGrid grid kwargs) env cores threads g
    have h2 := (runJobs_deterministic (Gen := Gen) (cvCombination P m fs) (createParamGrid grid kwargs) g).1
    rw [h1]
    rw [h2]
    simp only [ite_self]

/-- C94: a GPU that is not there is refused before anything is computed. -/
theorem C94_no_gpu {Row : Type} (env : PoolEnv Gen) (combination : List (List Row) → PyDict → CvJob Gen PyDict) (data : List Row)
    (folds : ℤ) (grid : List (String × List PyVal)) (kwargs : PyDict) (cores : Option ℤ) (multiprocessing : Bool)
    (perm : List ℕ) (threads : ℕ) (g : Gen) :
    crossValidationRun env false combination data folds grid kwargs "cuda" cores multiprocessing perm threads g
      = .error .valueError := by
  unfold crossValidationRun
  rw [if_pos ⟨rfl, rfl⟩]

/-- C94: whatever the jobs do, the pool call leaves the number of torch threads as it was. -/
theorem C94_threads (jobs : List (CvJob Gen R)) (env : PoolEnv Gen) (cores : Option ℤ) (threads : ℕ) (g : Gen) :
    (runMultiprocessing env cores jobs threads g).2.2 = threads := by
  unfold runMultiprocessing
  have hth := poolAttempt_threads env (cores.getD (min env.cpus jobs.length : ℕ)) jobs threads
  simp only
  split <;> exact hth

/-- A pool of two workers on a machine with four processors. -/
example : runMultiprocessing (⟨4, none, fun k => k % 2, fun w => w⟩ : PoolEnv ℕ) (some 2)
    ([3, 5, 8].map fun d => (fun g => ((if d = 0 then .error .valueError else .ok (2 * d) : Except PyErr ℕ), g) : CvJob ℕ ℕ)) 8 0
    = (.ok [6, 10, 16], 0, 8) := by
  rw [C94_same_as_sequential]
  rfl

/-! ## Random fits -/

/-- Jobs that draw a random number: the result is the state of the generator, which moves on. -/
def drawJob : CvJob ℕ ℕ := fun g => (.ok g, g + 1)

/-- The claim: the result of a parallel cross-validation does not depend on which worker takes which job. -/
def C94_schedule_claim : Prop :=
  ∀ (cpus : ℕ) (fresh : ℕ → ℕ) (worker worker' : ℕ → ℕ) (cores : Option ℤ) (jobs : List (CvJob ℕ ℕ)) (threads g : ℕ),
    (runMultiprocessing ⟨cpus, none, worker, fresh⟩ cores jobs threads g).1
      = (runMultiprocessing ⟨cpus, none, worker', fresh⟩ cores jobs threads g).1

/-- C94, negation: with fits that use random numbers the table depends on the distribution of the work, even if all workers
start from the same seed. -/
theorem C94_schedule_false : ¬ C94_schedule_claim := by
  intro h
  have := h 2 (fun _ => 0) (fun _ => 0) (fun k => k) (some 2) [drawJob, drawJob] 1 0
  simp [runMultiprocessing, poolAttempt, poolStarmap, blocks, poolRun, runJobs, drawJob, bind, Except.bind, pure, Except.pure] at this

/-- C95, the seeded part: after `set_seed` the results of any sequence of calls that read only the seeded generators are the
same whatever happened before, in whatever state the process was. -/
theorem C95_reproducible {G H : Type} {Q : Type} (init : ℕ → ℤ → G) (seed : ℤ) (calls : List (Generators G H → Q × Generators G H))
    (hread : ∀ f ∈ calls, ∀ s s' : Generators G H, s.python = s'.python → s.numpy = s'.numpy → s.torch = s'.torch →
      s.cuda = s'.cuda → (f s).1 = (f s').1 ∧ (f s).2.python = (f s').2.python ∧ (f s).2.numpy = (f s').2.numpy ∧
        (f s).2.torch = (f s').2.torch ∧ (f s).2.cuda = (f s').2.cuda)
    {Q₁ Q₂ : Type} (history₁ : List (Generators G H → Q₁ × Generators G H)) (history₂ : List (Generators G H → Q₂ × Generators G H))
    (s₁ s₂ : Generators G H) :
    (runCalls calls (setSeed init seed (runCalls history₁ s₁).2)).1
      = (runCalls calls (setSeed init seed (runCalls history₂ s₂).2)).1 := by
  have key : ∀ s s' : Generators G H, s.python = s'.python → s.numpy = s'.numpy → s.torch = s'.torch → s.cuda = s'.cuda →
      (runCalls calls s).1 = (runCalls calls s').1 := by
    induction calls with
    | nil => intros; rfl
    | cons f fs ih =>
      intro s s' h1 h2 h3 h4
      obtain ⟨k0, k1, k2, k3, k4⟩ := hread f (by simp) s s' h1 h2 h3 h4
      simp only [runCalls]
      rw [k0, ih (fun f' hf' => hread f' (by simp [hf'])) _ _ k1 k2 k3 k4]
  exact key _ _ rfl rfl rfl rfl

/-- `cross_validation` (utils.py 33-121) as a call of a process: the pool is part of what is not seeded, the folds are shuffled with torch's
generator, which the sequential fits also use. -/
def cvCall {Row : Type} (shuffle : ℕ → List ℕ) (combination : List (List Row) → PyDict → CvJob ℕ PyDict) (data : List Row)
    (folds : ℤ) (grid : List (String × List PyVal)) (kwargs : PyDict) (cores : Option ℤ) (multiprocessing : Bool) (threads : ℕ) :
    Generators ℕ (PoolEnv ℕ) → Except PyErr (List PyDict) × Generators ℕ (PoolEnv ℕ) := fun s =>
  (crossValidationRun s.hidden false combination data folds grid kwargs "cpu" cores multiprocessing (shuffle s.torch) threads
    (s.torch + 1), { s with torch := s.torch + 1 })

/-- C95: without multiprocessing, what `cross_validation` gives is decided by the seeded generators. -/
theorem C95_sequential {Row : Type} (shuffle : ℕ → List ℕ) (combination : List (List Row) → PyDict → CvJob ℕ PyDict)
    (data : List Row) (folds : ℤ) (grid : List (String × List PyVal)) (kwargs : PyDict) (cores : Option ℤ) (threads : ℕ)
    (init : ℕ → ℤ → ℕ) (seed : ℤ) (s₁ s₂ : Generators ℕ (PoolEnv ℕ)) :
    (cvCall shuffle combination data folds grid kwargs cores false threads (setSeed init seed s₁)).1
      = (cvCall shuffle combination data folds grid kwargs cores false threads (setSeed init seed s₂)).1 := by
  simp only [cvCall, crossValidationRun, setSeed]
  simp

/-- C95: with a pool that works, the fits do not depend on the generator of the caller, so that the seed has no effect on
them. -/
theorem C95_seed_without_effect (env : PoolEnv Gen) (cores : Option ℤ) (jobs : List (CvJob Gen R)) (threads : ℕ) (g g' : Gen)
    (rs : List R) (hok : (poolAttempt env (cores.getD (min env.cpus jobs.length : ℕ)) jobs threads).1 = .ok rs) :
    (runMultiprocessing env cores jobs threads g).1 = .ok rs ∧ (runMultiprocessing env cores jobs threads g').1 = .ok rs := by
  unfold runMultiprocessing
  simp only [hok, and_self]

/-- The claim: after `set_seed`, a call of `cross_validation` gives the same table whatever happened before. -/
def C95_pool_claim : Prop :=
  ∀ (shuffle : ℕ → List ℕ) (combination : List (List ℕ) → PyDict → CvJob ℕ PyDict) (data : List ℕ) (folds : ℤ)
    (grid : List (String × List PyVal)) (kwargs : PyDict) (cores : Option ℤ) (multiprocessing : Bool) (threads : ℕ)
    (init : ℕ → ℤ → ℕ) (seed : ℤ) (s₁ s₂ : Generators ℕ (PoolEnv ℕ)),
    (cvCall shuffle combination data folds grid kwargs cores multiprocessing threads (setSeed init seed s₁)).1
      = (cvCall shuffle combination data folds grid kwargs cores multiprocessing threads (setSeed init seed s₂)).1

/-- C95, negation: with multiprocessing, the default, the table is not reproducible by a seed if the fits use random
numbers. Two combinations, two cores, the same seed: in one run one worker does both. -/
theorem C95_pool_false : ¬ C95_pool_claim := by
  intro h
  have := h (fun _ => [0, 1]) (fun _ _ g => (.ok [("log_likelihood", .num g)], g + 1)) [7, 8] 2 [("a", [.num 1, .num 2])] []
    (some 2) true 1 (fun _ _ => 0) 1 ⟨0, 0, 0, 0, ⟨2, none, fun _ => 0, fun _ => 0⟩⟩ ⟨0, 0, 0, 0, ⟨2, none, fun k => k, fun _ => 0⟩⟩
  simp [cvCall, crossValidationRun, setSeed, cvFolds, torchChunk, takeRows, createParamGrid, pyProduct, PyDict.update,
    runMultiprocessing, poolAttempt, poolStarmap, blocks, poolRun, runJobs, bind, Except.bind, pure, Except.pure] at this

/-- Calls that meet the hypothesis of `C95_reproducible`: a sequential cross-validation. -/
example {Row : Type} (shuffle : ℕ → List ℕ) (combination : List (List Row) → PyDict → CvJob ℕ PyDict) (data : List Row) (folds : ℤ)
    (grid : List (String × List PyVal)) (kwargs : PyDict) (cores : Option ℤ) (threads : ℕ) (s s' : Generators ℕ (PoolEnv ℕ))
    (h1 : s.python = s'.python) (h2 : s.numpy = s'.numpy) (h3 : s.torch = s'.torch) (h4 : s.cuda = s'.cuda) :
    let f := cvCall shuffle combination data folds grid kwargs cores false threads
    (f s).1 = (f s').1 ∧ (f s).2.python = (f s').2.python ∧ (f s).2.numpy = (f s').2.numpy ∧
      (f s).2.torch = (f s').2.torch ∧ (f s).2.cuda = (f s').2.cuda := by
  simp [cvCall, crossValidationRun, h1, h2, h3, h4]

/-- A pool that works, with jobs that draw random numbers. -/
example : (poolAttempt (⟨4, none, fun k => k % 2, fun w => 10 * w⟩ : PoolEnv ℕ) 2 [drawJob, drawJob, drawJob] 8).1
    = .ok [0, 10, 1] := by
  simp [poolAttempt, poolStarmap, blocks, poolRun, runJobs, drawJob, bind, Except.bind, pure, Except.pure]

end Irt
