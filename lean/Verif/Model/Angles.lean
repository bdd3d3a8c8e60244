import Verif.Model.Geometry
/-
Angles of rotations: the offset of the second camera read from the configuration, Euler angles of a pose, errors
between two poses.  Doubles are reals.
-/
namespace RgbdSlam.Angles

open Geometry Matrix

noncomputable section

/-- src/types.hpp 72-81, `EulerAngles`. -/
structure Euler where
  yaw : ℝ
  pitch : ℝ
  roll : ℝ

/-- src/utils/angle_utils.cpp 6-11, `get_quaternion_from_euler_angles`. -/
def quaternionOf (e : Euler) : Quat := Quat.ofEuler e.yaw e.pitch e.roll

/-- src/utils/angle_utils.cpp 19-22, `get_rotation_matrix_from_euler_angles`. -/
def matrixOf (e : Euler) : M3 := (quaternionOf e).toRotationMatrix

/-- src/utils/angle_utils.cpp 13-17, `get_euler_angles_from_quaternion`; `xyz` is the function of Eigen that gives the
angles of the system XYZ of a matrix. -/
def eulerOf (xyz : M3 → V3) (q : Quat) : Euler :=
  let a := xyz q.toRotationMatrix
  { yaw := a 2, pitch := a 1, roll := a 0 }

/-- The keys `camera_2_translation_offset_*` and `camera_2_rotation_offset_*` of a configuration file.  They are read
as floats: the rounding is not modelled. -/
structure Offset where
  tx : ℝ
  ty : ℝ
  tz : ℝ
  rx : ℝ
  ry : ℝ
  rz : ℝ

/-- src/parameters.cpp 37-49, `_camera2toCamera1transformation`; the order of the arguments of `EulerAngles` is that
of src/types.hpp 80. -/
def secondCamera (o : Offset) : M4 :=
  transformation (quaternionOf { yaw := o.rx, pitch := o.ry, roll := o.rz }).toRotationMatrix ![o.tx, o.ty, o.tz]

/-- Eigen `conjugate()`. -/
def conjugate (q : Quat) : Quat := { w := q.w, x := -q.x, y := -q.y, z := -q.z }

/-- Eigen `angularDistance`: `d = a * b.conjugate(); 2 * atan2(d.vec().norm(), abs(d.w()))`. -/
def angularDistance (a b : Quat) : ℝ :=
  let d := a.mul (conjugate b)
  2 * atan2 (Geometry.norm ![d.x, d.y, d.z]) |d.w|

/-- src/utils/pose.cpp 43-46, `get_position_error`. -/
def positionError (p other : Pose) : ℝ := Geometry.norm (other.position - p.position)

/-- src/utils/pose.cpp 48-52, `get_rotation_error`, in degrees. -/
def rotationError (p other : Pose) : ℝ := angularDistance p.orientation other.orientation / (Real.pi / 180)

end

end RgbdSlam.Angles
