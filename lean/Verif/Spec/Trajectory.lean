/-! # Times that a ROS duration can hold -/
namespace Verif.Trajectory

/-- A time in nanoseconds whose seconds, rounded down, are a 32-bit number. -/
def Representable (t : Int) : Prop := -2147483648000000000 ≤ t ∧ t < 2147483648000000000

end Verif.Trajectory
