import Verif.Model.Plot2D

/-!
# Model of `plot_ellipses` in `src/tavi/instrument/resolution/ellipsoid.py`

A panel is its place in the figure, the angle of its grid and the calls on its axes. Given: `la.eig` and the labels of the four axes.
Not modelled: the title of the figure and its layout.
-/

namespace Tavi

/-- The two rows and columns of the matrix of an ellipse. -/
def Quad.two : Quad → Py (Mat 2 2)
  | ⟨2, m⟩ => .ok m
  | _ => .error .valueError

/-- `self.get_ellipse(axes=indices, PROJECTION=...)`, ellipsoid.py lines 265-266: the `ResoEllipse` made on line 259, with its
eigenvalues and eigenvectors (ellipse.py line 35). -/
noncomputable def figEllipse (eig : Mat 2 2 → (Fin 2 → ℝ) × Mat 2 2) (labels : Fin 4 → Str) (e : Ellipsoid) (x y : Fin 4)
    (projection : Bool) : Py EllipseObj := do
  let el ← getEllipse e x y projection true
  let m ← el.mat.two
  return ⟨m, (eig m).1, (eig m).2, (el.cx, el.cy), el.angle, some (labels x), some (labels y)⟩

/-- One panel. -/
structure Panel where
  place : ℕ
  gridAngle : ℝ
  calls : List Ax2Call

/-- The format of an ellipse, lines 270-271 and 274-275: a label in the panel of the axes 2 and 3 only. -/
def figFmt (x y : Fin 4) (style label : String) : Fmt :=
  [("c".toList, "k".toList), ("linestyle".toList, style.toList)] ++
    if x = 2 ∧ y = 3 then [("label".toList, label.toList)] else []

/-- Line 262. -/
def figPairs : List (Fin 4 × Fin 4) := [(0, 3), (1, 3), (2, 3), (0, 1), (1, 2), (0, 2)]

/-- The objects of a panel: 0 is the incoherent ellipse, 1 the coherent one. -/
def figObj (inco co : EllipseObj) (n : ℕ) : Obj2 := if n = 0 then .ellipse inco else .ellipse co

/-- Lines 268-275 and 284-288: what is done with the plot of a panel. -/
noncomputable def figOps (x y : Fin 4) (c : ℝ × ℝ) (fx fy : ℝ) : List Plot2Op :=
  [.add 0 0 (figFmt x y "dashed" "Incoherent"), .add 0 1 (figFmt x y "solid" "Coherent"),
   .setXlim 0 (some (c.1 - fx * 0.6, c.1 + fx * 0.6)), .setYlim 0 (some (c.2 - fy * 0.6, c.2 + fy * 0.6))]

/-- Lines 264-288: the panel number `i` of the loop. -/
noncomputable def figPanel (eig : Mat 2 2 → (Fin 2 → ℝ) × Mat 2 2) (labels : Fin 4 → Str) (e : Ellipsoid) (i : ℕ) (p : Fin 4 × Fin 4) :
    Py Panel := do
  let inco ← figEllipse eig labels e p.1 p.2 true
  let co ← figEllipse eig labels e p.1 p.2 false
  let fx ← incohFwhm e.mat p.1
  let fy ← incohFwhm e.mat p.2
  let w := Plots2.run (figObj inco co) ⟨fun _ => [], fun _ => Plot2D.new⟩ (figOps p.1 p.2 co.centre fx fy)
  let c ← w.calls (figObj inco co) 0
  return ⟨i + 1, co.angle, c.1⟩

/-- `plot_ellipses`, ellipsoid.py lines 261-288. -/
noncomputable def plotEllipses (eig : Mat 2 2 → (Fin 2 → ℝ) × Mat 2 2) (labels : Fin 4 → Str) (e : Ellipsoid) : Py (List Panel) :=
  figPairs.zipIdx.mapM fun p => figPanel eig labels e p.2 p.1

end Tavi
