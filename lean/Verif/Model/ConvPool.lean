import Verif.Model.Convolution

/-!
# Model of `calculate` in `src/tavi/instrument/resolution/convolution.py`

The jobs run in worker processes, each with its own cache of meshes (`functools.cache` on `generate_meshgrid`). A schedule says which
worker finishes which job, in the order in which that happens; a job that was cancelled after an exception is not in it. Not
modelled: sending the functions to the workers (they must be picklable), a worker that dies.
-/

namespace Tavi

open Matrix

/-- convolution.py lines 78-84, `generate_meshgrid`: the nodes in units of the widths. -/
noncomputable def meshgrid (s : ℕ) (n : Pts) : List V3 :=
  (meshIdx n).map fun i => ![lineAt s n.1 i.1, lineAt s n.2.1 i.2.1, lineAt s n.2.2 i.2.2]

/-- The cache of line 78: arguments and what was computed for them. -/
abbrev MeshCache := List ((ℕ × Pts) × List V3)

/-- A call of the cached function, lines 78 and 90. -/
noncomputable def MeshCache.get (c : MeshCache) (s : ℕ) (n : Pts) : List V3 × MeshCache :=
  match c.lookup (s, n) with
  | some mesh => (mesh, c)
  | none => (meshgrid s n, ((s, n), meshgrid s n) :: c)

/-- convolution.py lines 87-96, `generate_pts`, from the mesh. -/
noncomputable def ptsOf (mesh : List V3) (sig : ℝ × ℝ × ℝ) (m : Mat 3 3) (s : ℕ) : List V3 :=
  (mesh.map fun u => ![u 0 * sig.1, u 1 * sig.2.1, u 2 * sig.2.2]).filter fun v => decide (rSq m v < (s : ℝ) ^ 2)

/-- convolution.py lines 179-215, with the points taken from the mesh. -/
noncomputable def secondRoundOf {B : ℕ} (p : ResoParams) (disp inten : Fin B → V3 → ℝ) (pts : List V3) (vols : ℝ) (n : Pts) : Py ℝ := do
  let cell ← pyDiv vols ((n.1 * n.2.1 * n.2.2 : ℕ) : ℝ)
  let d ← pySqrt p.mat.det
  return p.r0 * ((pts.map (pointTerm p disp inten)).sum * cell) * d / (2 * Real.pi) ^ 2

/-- convolution.py lines 112-134: what is computed before the first mesh. -/
noncomputable def convPrep (reso : Option ResoParams) : Py (ResoParams × Mat 3 3 × (ℝ × ℝ × ℝ) × ℝ × ℝ × ℝ) := do
  let p ← need reso .nonFinite
  let m ← convProj p.mat 3
  let sig ← incohSigmaQs m
  let sEn ← incohSigmaEn p.mat
  let sCoh ← cohSigma p.mat 3
  let vols ← elemVols (eigvalsh m) 3
  return (p, m, sig, sEn, sCoh, vols)

/-- convolution.py lines 138-215: from the first mesh on. -/
noncomputable def convRounds {B : ℕ} (c : MeshCache) (p : ResoParams) (m : Mat 3 3) (sig : ℝ × ℝ × ℝ) (sEn sCoh vols : ℝ)
    (disp inten : Fin B → V3 → ℝ) (rez : ℝ) (maxStep : ℕ) : Py ℝ × MeshCache :=
  let g := c.get 3 (10, 10, 10)
  match skipped p disp (ptsOf g.1 sig m 3) sEn with
  | .error e => (.error e, g.2)
  | .ok true => (.ok 0, g.2)
  | .ok false =>
    let n := refinedPts p disp sig m (sCoh * rez) maxStep
    let h := g.2.get 3 n
    (secondRoundOf p disp inten (ptsOf h.1 sig m 3) vols n, h.2)

/-- convolution.py lines 111-215 in a process with the cache `c`; the cache afterwards. -/
noncomputable def convolutionIn {B : ℕ} (c : MeshCache) (reso : Option ResoParams) (disp inten : Fin B → V3 → ℝ) (rez : ℝ)
    (maxStep : ℕ) : Py ℝ × MeshCache :=
  match convPrep reso with
  | .error e => (.error e, c)
  | .ok (p, m, sig, sEn, sCoh, vols) => convRounds c p m sig sEn sCoh vols disp inten rez maxStep

/-- What a job hands back: a number or nan; or it raises. -/
def jobOutcome : Py ℝ → Py Num
  | .ok x => .ok (some x)
  | .error .nonFinite => .ok none
  | .error e => .error e

/-- The pool: the caches of the workers, and what was handed back so far. -/
structure Pool where
  caches : ℕ → MeshCache
  done : ℕ → Option (Py Num)

/-- One job is finished by a worker: line 222, with the defaults of line 111. -/
noncomputable def Pool.finish {B : ℕ} (jobs : List (Option ResoParams)) (disp inten : Fin B → V3 → ℝ) (s : Pool) (e : ℕ × ℕ) : Pool :=
  match jobs[e.2]? with
  | none => s
  | some job =>
    let r := convolutionIn (s.caches e.1) job disp inten (1 / 5) 100
    ⟨Function.update s.caches e.1 r.2, Function.update s.done e.2 (some (jobOutcome r.1))⟩

/-- `list(executor.map(...))`, line 222: the outcomes in the order of the jobs; the first exception in this order is raised. A job
that never finishes would block (`stopIteration` here; excluded by the schedules considered). -/
def Pool.results (s : Pool) (n : ℕ) : Py (List Num) :=
  (List.range n).mapM fun i => need (s.done i) .stopIteration >>= id

/-- convolution.py lines 218-223, `calculate`. -/
noncomputable def calculate {B : ℕ} (caches : ℕ → MeshCache) (schedule : List (ℕ × ℕ)) (disp inten : Fin B → V3 → ℝ)
    (jobs : List (Option ResoParams)) : Py (List Num) :=
  (schedule.foldl (Pool.finish jobs disp inten) ⟨caches, fun _ => none⟩).results jobs.length

end Tavi
