import Verif.Model.Outcome
/-
Model of `rgbd_slam::Parameters` (src/parameters.cpp, src/parameters.hpp) and of the parameter check in
the constructor of `RGBD_SLAM` (src/rgbd_slam.cpp:30-40).

Simplifications: a `double` is a rational number or NaN (no rounding, no infinities); the transformation
between the two cameras is left out; a configuration file is the record of the values that
`cv::FileStorage` returns (0 for a missing key), sizes being `int` values.
-/
namespace RgbdSlam.Params

/-- A `double`, without rounding. -/
inductive Dbl where
  | nan
  | num (q : Rat)
  deriving DecidableEq

/-- `x < 0` on doubles: false for NaN. -/
def Dbl.isNeg : Dbl → Bool
  | nan => false
  | num q => decide (q < 0)

/-- One camera section of a configuration file as returned by `cv::FileStorage`
(src/parameters.cpp:22-27 and 30-35). -/
structure CamFile where
  sizeX : Int
  sizeY : Int
  focalX : Dbl
  focalY : Dbl
  centerX : Dbl
  centerY : Dbl
  deriving DecidableEq

/-- Stored intrinsics of a camera; the image size is a vector of `uint` (src/parameters.hpp:174-180). -/
structure Cam where
  sizeX : Nat
  sizeY : Nat
  focalX : Dbl
  focalY : Dbl
  centerX : Dbl
  centerY : Dbl
  deriving DecidableEq

/-- Entries (fx, fy, cx, cy) of the pinhole matrix. -/
abbrev Intrinsics := Dbl × Dbl × Dbl × Dbl

/-- The static members (src/parameters.hpp:172-185) and the function-local static of
`get_camera_1_intrinsics` (144-149). -/
structure State where
  isValid : Bool
  cam1 : Cam
  cam2 : Cam
  cachedIntrinsics1 : Option Intrinsics
  deriving DecidableEq

/-- `uint x = int(...)`: conversion modulo 2^32 (src/parameters.cpp:22). -/
def toUint (x : Int) : Nat := (x % (2 ^ 32 : Int)).toNat

def Cam.ofFile (f : CamFile) : Cam :=
  { sizeX := toUint f.sizeX, sizeY := toUint f.sizeY, focalX := f.focalX, focalY := f.focalY,
    centerX := f.centerX, centerY := f.centerY }

/-- Default camera of `load_defaut` (src/parameters.cpp:62-70). -/
def defaultCam : Cam :=
  { sizeX := 640, sizeY := 480, focalX := .num 550, focalY := .num 550,
    centerX := .num 320, centerY := .num 240 }

/-- Static initialisation: everything zero, `_isValid = false` (src/parameters.hpp:174). -/
def initial : State :=
  let zero : Cam := { sizeX := 0, sizeY := 0, focalX := .num 0, focalY := .num 0,
                      centerX := .num 0, centerY := .num 0 }
  { isValid := false, cam1 := zero, cam2 := zero, cachedIntrinsics1 := none }

/-- The per camera part of `check_parameters_validity` (src/parameters.cpp:79-98, 100-119).  On unsigned
values `<= 0` is `== 0`. -/
def camValid (c : Cam) : Bool :=
  !(decide (c.sizeX ≤ 0)) && !(decide (c.sizeY ≤ 0)) && !c.centerX.isNeg && !c.centerY.isNeg

/-- `check_parameters_validity` (src/parameters.cpp:76-119). The `static_assert`s are compile time. -/
def check (s : State) : State := { s with isValid := camValid s.cam1 && camValid s.cam2 }

/-- `load_defaut` (src/parameters.cpp:59-74): does not touch `_isValid`. -/
def loadDefault (s : State) : State := { s with cam1 := defaultCam, cam2 := defaultCam }

/-- `parse_file` (src/parameters.cpp:10-57); `none` is a file that cannot be opened. -/
def parseFile (file : Option (CamFile × CamFile)) (s : State) : State × Bool :=
  match file with
  | none => (check (loadDefault s), false)
  | some (f1, f2) =>
    let s' := check { s with cam1 := Cam.ofFile f1, cam2 := Cam.ofFile f2 }
    (s', s'.isValid)

/-- `get_camera_1_intrinsics` (src/parameters.hpp:144-149): computed at the first call only. -/
def intrinsics1 (s : State) : State × Intrinsics :=
  match s.cachedIntrinsics1 with
  | some m => (s, m)
  | none =>
    let m := (s.cam1.focalX, s.cam1.focalY, s.cam1.centerX, s.cam1.centerY)
    ({ s with cachedIntrinsics1 := some m }, m)

/-- Parameter check of the constructor of `RGBD_SLAM` (src/rgbd_slam.cpp:30-40). -/
def construct (s : State) : Outcome State :=
  if s.isValid then .ok s
  else
    let s' := loadDefault s
    if s'.isValid then .ok s' else .exit

/-- What a program can do with the parameters before and after building the SLAM object. -/
inductive Op where
  | parse (file : Option (CamFile × CamFile))
  | loadDefault
  | getIntrinsics

def apply (s : State) : Op → State
  | .parse f => (parseFile f s).1
  | .loadDefault => loadDefault s
  | .getIntrinsics => (intrinsics1 s).1

def applyAll (s : State) (ops : List Op) : State := ops.foldl apply s

end RgbdSlam.Params
