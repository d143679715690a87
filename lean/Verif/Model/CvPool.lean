import Verif.Model.Splits

/-!
# Running a cross-validation: `utils.py` 33-165 and `set_seed` 559-577

The fit of one parameter combination may use random numbers, which come from the generator of the process it runs in. A
worker of the pool is a process of its own (`spawn`), with a generator `fresh w` that does not depend on that of the caller.
Which worker takes which chunk of jobs is decided by the operating system and is an argument.
-/

namespace Irt

/-- `_cv_param_combination` with its arguments (utils.py 132-133): uses the generator of the process and may raise. -/
abbrev CvJob (Gen R : Type) := Gen → Except PyErr R × Gen

/-- utils.py 154-165 `_run_sequential`, also the loop over the jobs of one chunk in a worker (`starmapstar` of the standard
library): the first exception ends it. -/
def runJobs {Gen R : Type} : List (CvJob Gen R) → Gen → Except PyErr (List R) × Gen
  | [], g => (.ok [], g)
  | j :: js, g =>
    match j g with
    | (.error e, g') => (.error e, g')
    | (.ok r, g') =>
      match runJobs js g' with
      | (.error e, g'') => (.error e, g'')
      | (.ok rs, g'') => (.ok (r :: rs), g'')

/-- The pool: `worker k` is the worker that takes the `k`-th chunk. Chunks are taken in order, so that each worker goes
through its chunks in order and goes on with the generator state it has. -/
def poolRun {Gen R : Type} (worker : ℕ → ℕ) :
    List (List (CvJob Gen R)) → ℕ → (ℕ → Gen) → List (Except PyErr (List R))
  | [], _, _ => []
  | c :: cs, k, gens =>
    (runJobs c (gens (worker k))).1 ::
      poolRun worker cs (k + 1) (Function.update gens (worker k) (runJobs c (gens (worker k))).2)

/-- `Pool.starmap` of the standard library: chunks of `ceil(jobs / (4 * cores))` jobs, results in the order of the jobs; it
raises if a job raised. -/
def poolStarmap {Gen R : Type} (cores : ℕ) (worker : ℕ → ℕ) (fresh : ℕ → Gen) (jobs : List (CvJob Gen R)) :
    Except PyErr (List R) := do
  let chunk := (jobs.length + 4 * cores - 1) / (4 * cores)
  let parts ← (poolRun worker (blocks (chunk - 1) jobs) 0 fresh).mapM id
  return parts.flatten

/-- What the operating system and the machine decide: the number of processors, whether making the pool or sending the jobs
fails, which worker takes which chunk, and the generators of the workers. -/
structure PoolEnv (Gen : Type) where
  cpus : ℕ
  fails : Option PyErr
  worker : ℕ → ℕ
  fresh : ℕ → Gen

/-- utils.py 128-146: the attempt to use a pool of `n` workers: what it gives or raises, and the number of torch threads
afterwards, which `finally` sets back. `threads` is the number before. Lists of jobs cannot fail to be made. -/
def poolAttempt {Gen R : Type} (env : PoolEnv Gen) (n : ℤ) (jobs : List (CvJob Gen R)) (threads : ℕ) : Except PyErr (List R) × ℕ :=
  let original := threads
  if n = 0 then (.error .zeroDivision, original)
  else
    let _current := (max 1 ((threads : ℤ) / n)).toNat
    let result : Except PyErr (List R) :=
      if n < 0 then .error .valueError
      else match env.fails with
        | some e => .error e
        | none => poolStarmap n.toNat env.worker env.fresh jobs
    let _current := original
    (result, _current)

/-- utils.py 123-152 `_run_multiprocessing`: result, generator of the caller and number of torch threads afterwards. Any
exception leads to the sequential loop. -/
def runMultiprocessing {Gen R : Type} (env : PoolEnv Gen) (cores : Option ℤ) (jobs : List (CvJob Gen R)) (threads : ℕ) (g : Gen) :
    Except PyErr (List R) × Gen × ℕ :=
  let attempt := poolAttempt env (cores.getD (min env.cpus jobs.length : ℕ)) jobs threads
  match attempt.1 with
  | .ok rs => (.ok rs, g, attempt.2)
  | .error _ => ((runJobs jobs g).1, (runJobs jobs g).2, attempt.2)

/-- utils.py 33-121 `cross_validation`. `combination folds params` is the job of one parameter combination, with its own copy
of the model. `perm` are the shuffled row numbers. Returns the rows of the table. -/
def crossValidationRun {Gen Row : Type} (env : PoolEnv Gen) (cuda : Bool)
    (combination : List (List Row) → PyDict → CvJob Gen PyDict) (data : List Row) (folds : ℤ)
    (grid : List (String × List PyVal)) (kwargs : PyDict) (device : String) (cores : Option ℤ) (multiprocessing : Bool)
    (perm : List ℕ) (threads : ℕ) (g : Gen) : Except PyErr (List PyDict) := do
  if device = "cuda" ∧ cuda = false then .error .valueError
  else
    let fs ← cvFolds data folds perm
    let jobs := (createParamGrid grid kwargs).map (combination fs)
    let results ← if device = "cpu" ∧ multiprocessing = true then (runMultiprocessing env cores jobs threads g).1
      else (runJobs jobs g).1
    if kwargs.all fun p => results.any fun d => (d.map Prod.fst).contains p.1 then
      return results.map fun d => d.filter fun q => !(kwargs.map Prod.fst).contains q.1
    else .error .indexError

/-- The random number generators of a process that are seeded (utils.py 568-571); `hidden` is everything else a computation
may read: the processes of a pool and their scheduling. -/
structure Generators (G H : Type) where
  python : G
  numpy : G
  torch : G
  cuda : G
  hidden : H

/-- utils.py 559-571 `set_seed`; `init k seed` is the state of generator `k` seeded with `seed`. The cuDNN switches (575-577)
are not modelled. -/
def setSeed {G H : Type} (init : ℕ → ℤ → G) (seed : ℤ) (s : Generators G H) : Generators G H :=
  { python := init 0 seed, numpy := init 1 seed, torch := init 2 seed, cuda := init 3 seed, hidden := s.hidden }

/-- A sequence of calls, each of which returns something and moves the generators. -/
def runCalls {St R : Type} : List (St → R × St) → St → List R × St
  | [], s => ([], s)
  | f :: fs, s => ((f s).1 :: (runCalls fs (f s).2).1, (runCalls fs (f s).2).2)

end Irt
