/-
Vocabulary for the window properties.
-/
import Verif.Windows.Model

namespace Celest.Windows

open Celest.Schedule (VTW)

variable {K : Type} [LinearOrder K] [Zero K]

/-- `a..b` is a maximal block of consecutive positions below `n` that satisfy `P`. -/
def MaximalRun (P : ℕ → Prop) (n a b : ℕ) : Prop :=
  a ≤ b ∧ b < n ∧ (∀ k, a ≤ k → k ≤ b → P k) ∧ (a = 0 ∨ ¬ P (a - 1)) ∧ (b + 1 = n ∨ ¬ P (b + 1))

/-- Sample `k` meets the lighting condition. -/
def Lit (sc : Scene K) (lighting : Lighting) (k : ℕ) : Prop :=
  match lighting with
  | .night => ∃ x, sc.sunElevation[k]? = some (some x) ∧ x < 0
  | .anytime => True
  | .day => ∃ x, sc.sunElevation[k]? = some (some x) ∧ 0 < x
  | .invalid => False

/-- Sample `k` is visible: above the threshold and meeting the lighting condition. -/
def Visible (sc : Scene K) (threshold : K) (lighting : Lighting) (k : ℕ) : Prop :=
  (∃ e, sc.elevation[k]? = some (some e) ∧ threshold < e) ∧ Lit sc lighting k

/-- One elevation, sun elevation and pitch per time sample. -/
def Scene.WellFormed {K : Type} (sc : Scene K) : Prop :=
  sc.elevation.length = sc.julian.length ∧ sc.sunElevation.length = sc.julian.length ∧
    sc.pitch.length = sc.julian.length

end Celest.Windows
