/-
Model of `_altitude` of celest/coordinates/transforms.py in floating-point arithmetic.
-/
import Verif.Frames.RoundedAngles

namespace Celest.Frames

/-- NumPy's arctangent and mean. -/
structure Extra where
  arctan : ℝ → ℝ
  mean : List ℝ → ℝ

/-- What is assumed about them: the arctangent is off by at most `4u`, and the mean of numbers of
absolute value at most `B` by at most a tenth of `B` (sums of up to `0.05/u` numbers are that good,
whatever the order). -/
structure Extra.Accurate (E : Extra) (u : ℝ) : Prop where
  arctan : ∀ x, |E.arctan x - Real.arctan x| ≤ 4 * u
  mean : ∀ l B, 0 ≤ B → (∀ x ∈ l, |x| ≤ B) → |E.mean l - Frames.mean l| ≤ B / 10

namespace Rounded

variable (M : Machine) (pw : ℝ → ℕ → ℝ) (E : Extra)

/-- `b ** 2 / a ** 2` (transforms.py 230-232 and 239). -/
noncomputable def axesSq : ℝ := M.fl (pw (M.fl axisB) 2 / pw (M.fl axisA) 2)

/-- `e ** 2` with `e = np.sqrt(1 - b ** 2 / a ** 2)` (transforms.py 232, 236 and 241). -/
noncomputable def eccSq : ℝ := pw (M.fl (Real.sqrt (M.fl (1 - axesSq M pw)))) 2

/-- `(z / p) * (1 - q) ** -1` (transforms.py 236 and 241).  NumPy computes the reciprocal for the
exponent -1. -/
noncomputable def latTan (p z q : ℝ) : ℝ := M.fl (M.fl (z / p) * M.fl (1 / M.fl (1 - q)))

/-- `N` inside `new_vals` (transforms.py 239). -/
noncomputable def curvature (phi : ℝ) : ℝ :=
  M.fl (M.fl axisA / M.fl (Real.sqrt (M.fl (pw (M.cos phi) 2 +
    M.fl (axesSq M pw * pw (M.sin phi) 2)))))

/-- `new_vals` inside `_altitude` (transforms.py 238-243). -/
noncomputable def altStep (p z phi : ℝ) : ℝ × ℝ :=
  let N := curvature M pw phi
  let h := M.fl (M.fl (p / M.cos phi) - N)
  (h, E.arctan (latTan M p z (M.fl (M.fl (eccSq M pw * N) / M.fl (N + h)))))

/-- Distance of a point from the polar axis (transforms.py 233). -/
noncomputable def axisDistance (v : Vec) : ℝ :=
  M.fl (Real.sqrt (M.fl (pw (v 0) 2 + pw (v 1) 2)))

/-- The first value of `h` for one point (transforms.py 235). -/
noncomputable def startHeight (v : Vec) : ℝ :=
  M.fl (M.fl (Real.sqrt (M.fl (M.fl (pw (v 0) 2 + pw (v 1) 2) + pw (v 2) 2))) -
    M.fl (Real.sqrt (M.fl (M.fl axisA * M.fl axisB))))

/-- Start values `(h, phi)` of `_altitude` for one point (transforms.py 232-236). -/
noncomputable def altStart (v : Vec) : ℝ × ℝ :=
  let h := startHeight M pw v
  (h, E.arctan (latTan M (axisDistance M pw v) (v 2)
    (M.fl (M.fl (eccSq M pw * M.fl axisA) / M.fl (M.fl axisA + h)))))

/-- The arrays `(h, phi)` after `k` passes through the loop body (transforms.py 245-249).
Simplified: no point lies on the polar axis, where NumPy would divide by zero. -/
noncomputable def altState (pts : List Vec) : ℕ → List (ℝ × ℝ)
  | 0 => pts.map (altStart M pw E)
  | k + 1 => List.zipWith (fun v s => altStep M pw E (axisDistance M pw v) (v 2) s.2) pts
      (altState pts k)

/-- The loop condition after `k` passes (transforms.py 247), with `tol = 10e-10`. -/
def altContinue (pts : List Vec) (k : ℕ) : Prop :=
  M.fl (M.fl axisA * M.fl (10 * 10 ^ (-10 : ℤ))) <
    E.mean (List.zipWith (fun x y => M.fl (x - y)) ((altState M pw E pts (k + 1)).map (·.1))
      ((altState M pw E pts k).map (·.1))) ∨
  M.fl (10 * 10 ^ (-10 : ℤ)) <
    E.mean (List.zipWith (fun x y => M.fl (x - y)) ((altState M pw E pts (k + 1)).map (·.2))
      ((altState M pw E pts k).map (·.2)))

/-- `_altitude` returns `r` for points in kilometres (transforms.py 192-251): the value of `h`,
not of `hp`, at the first time the loop condition fails. -/
def AltitudeReturns (pts : List Vec) (r : List ℝ) : Prop :=
  ∃ k, (∀ j < k, altContinue M pw E pts j) ∧ ¬ altContinue M pw E pts k ∧
    r = (altState M pw E pts k).map (·.1)

end Rounded

end Celest.Frames
