import Verif.Model.Pose

/-!
# Model of RandomRotationGenerator (include/arc_utilities/arc_helpers.hpp:1207-1265)

`double` is a real number, so arithmetic is exact. The random number generator together with
`std::uniform_real_distribution` is a function from its state to a draw and the next state.
-/
namespace Verif.RandomRotation
open Verif Verif.Kinematics

variable {σ : Type} (uniform : σ → ℝ × σ)

/-- arc_helpers.hpp:1215-1231 `GenerateUniformRandomQuaternion`, 1242-1246 `GetQuaternion` -/
noncomputable def getQuaternion (g : σ) : Quat × σ :=
  let d0 := uniform g
  let x0 := d0.1
  let r1 := Real.sqrt (1 - x0)
  let r2 := Real.sqrt x0
  let d1 := uniform d0.2
  let t1 := 2 * Real.pi * d1.1
  let d2 := uniform d1.2
  let t2 := 2 * Real.pi * d2.1
  let c1 := Real.cos t1
  let s1 := Real.sin t1
  let c2 := Real.cos t2
  let s2 := Real.sin t2
  let x := s1 * r1
  let y := c1 * r1
  let z := s2 * r2
  let w := c2 * r2
  (⟨w, x, y, z⟩, d2.2)

/-- arc_helpers.hpp:1233-1240 `GenerateUniformRandomEulerAngles`, 1254-1258 `GetEulerAngles`: roll, pitch and yaw -/
noncomputable def getEulerAngles (g : σ) : (Fin 3 → ℝ) × σ :=
  let d0 := uniform g
  let roll := 2 * Real.pi * d0.1 - Real.pi
  let d1 := uniform d0.2
  let pitchInit := Real.arccos (1 - 2 * d1.1) + Real.pi / 2
  let d2 := uniform d1.2
  let pitch :=
    if d2.1 < 0.5 then (if pitchInit < Real.pi then pitchInit + Real.pi else pitchInit - Real.pi) else pitchInit
  let d3 := uniform d2.2
  let yaw := 2 * Real.pi * d3.1 - Real.pi
  (![roll, pitch, yaw], d3.2)

/-- arc_helpers.hpp:1248-1252 `GetRawQuaternion` -/
noncomputable def getRawQuaternion (g : σ) : List ℝ × σ :=
  let r := getQuaternion uniform g
  ([r.1.x, r.1.y, r.1.z, r.1.w], r.2)

/-- arc_helpers.hpp:1260-1264 `GetRawEulerAngles` -/
noncomputable def getRawEulerAngles (g : σ) : List ℝ × σ :=
  let r := getEulerAngles uniform g
  ([r.1 0, r.1 1, r.1 2], r.2)

end Verif.RandomRotation
