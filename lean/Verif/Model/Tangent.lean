import Verif.Model.Layer

/-! Model of the normalisations of `nannos/formulations/tangent.py`. -/

namespace Nannos

/-- `_normalize(x, n, invalid, threshold)` (`nannos/formulations/tangent.py:17-20`) at one pixel; the quotient is
discarded where `n <= threshold`. -/
noncomputable def normalizePt (x : ℂ) (n : ℝ) (invalid : ℂ) (threshold : ℝ) : ℂ :=
  open Classical in if n ≤ threshold then invalid * 1 else x / n

/-- `_normalize_vec(V, n, threshold=1e-6)` (`nannos/formulations/tangent.py:23-26`) at one pixel. -/
noncomputable def normalizeVecPt (v0 v1 : ℂ) (n : ℝ) (threshold : ℝ := 1 / 10 ^ 6) : ℂ × ℂ :=
  (normalizePt v0 n 1 threshold, normalizePt v1 n 0 threshold)

/-- `norm_t = norm(t); t = _normalize_vec(t, norm_t)` (`nannos/formulations/tangent.py:60-62`). -/
noncomputable def normalizeField (t : Field2) : Field2 :=
  ⟨t.Nx, t.Ny, fun x y => (normalizeVecPt (t.t0 x y) (t.t1 x y) (normPt (t.t0 x y) (t.t1 x y))).1,
    fun x y => (normalizeVecPt (t.t0 x y) (t.t1 x y) (normPt (t.t0 x y) (t.t1 x y))).2⟩

end Nannos
