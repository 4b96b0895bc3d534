import Verif.Eigen

/-! # `Gravity` (src/util/Gravity.cpp, include/util/Gravity.hpp)

Simplification: `gravityParams` is a public member with default initialisers and no code in /repo ever writes to it, so it is modelled
as constants. -/

namespace NavFuse.Gravity

variable {α : Type} [Add α] [Sub α] [Mul α] [Div α] [Neg α] [Flt α]

/-- equatorial radius, include/util/Gravity.hpp:26 -/
def a : α := Flt.lit 6378137
/-- polar radius, include/util/Gravity.hpp:27 -/
def b : α := Flt.lit 6356752.3141
/-- gravitational parameter, include/util/Gravity.hpp:29 -/
def kM : α := Flt.lit 3.986005 * Flt.lit 1e14
/-- rotation rate of the earth, include/util/Gravity.hpp:30 -/
def wE : α := Flt.lit 7.292115 * Flt.lit 1e-5
/-- universal gravitation constant, include/util/Gravity.hpp:31 -/
def G : α := Flt.lit 6.674 * Flt.lit 1e-11
/-- mass of the earth, include/util/Gravity.hpp:32 -/
def mE : α := Flt.lit 5.972 * Flt.lit 1e24
/-- normal gravity at the equator, include/util/Gravity.hpp:33 -/
def gEq : α := Flt.lit 9.7803267715
/-- normal gravity at the poles, include/util/Gravity.hpp:34 -/
def gPole : α := Flt.lit 9.8321863685
/-- flattening, include/util/Gravity.hpp:35 -/
def f : α := Flt.lit 1 / Flt.lit 298.257222101

/-- `Gravity::simpleGravity`, src/util/Gravity.cpp:14-26. Fixed-size arguments: it always returns true. -/
def simpleGravity (rA : V3 α) : Bool × V3 α :=
  let rSq := vsqNorm rA                                              -- line 18
  (true, vsmul ((-G * mE) / rSq) (vnormalized rA))                   -- line 21

/-- `Gravity::gravityNed`, src/util/Gravity.cpp:29-62. -/
def gravityNed (lat h : α) : Bool × V3 α :=
  let clat := Flt.cos lat                                            -- lines 34-41
  let slat := Flt.sin lat
  let m : α := Flt.powi wE 2 * Flt.powi a 2 * b / kM
  let num := (a * gEq * Flt.powi clat 2) + (b * gPole * Flt.powi slat 2)                           -- line 44
  let den := Flt.sqrt ((Flt.powi a 2 * Flt.powi clat 2) + (Flt.powi b 2 * Flt.powi slat 2))        -- line 45
  let gEarthEll := num / den                                                                       -- line 46
  let gDown := gEarthEll * (Flt.lit 1 - ((Flt.lit 2 / a) * (Flt.lit 1 + f + m - (Flt.lit 2 * f * Flt.powi slat 2)) * h)
      + (Flt.lit 3 * Flt.powi h 2 / Flt.powi a 2))                                                 -- line 49
  let gNorth := -Flt.lit 8.08 * Flt.lit 1e-6 * (h / Flt.lit 1000) * Flt.sin (Flt.lit 2 * lat)      -- line 52
  (true, ![gNorth, Flt.lit 0, gDown])                                                              -- line 55

end NavFuse.Gravity
