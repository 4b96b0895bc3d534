import Verif.Model.Gravity

/-! # `Rotations`: ECEF, NED and geodetic coordinates (src/util/Rotations.cpp:14-153)

Fixed-size arguments: nothing can stop these functions. -/

namespace NavFuse.Rotations
open Gravity

variable {α : Type} [Add α] [Sub α] [Mul α] [Div α] [Neg α] [Flt α]

/-- the range check shared by the functions below, e.g. src/util/Rotations.cpp:19-27; true means "return false" -/
def latLonBad (lat lon : α) : Bool :=
  Flt.lt (Flt.pi / Flt.lit 2) (Flt.abs lat) || Flt.lt Flt.pi (Flt.abs lon)

/-- `Rotations::computeREcef2Ned`, src/util/Rotations.cpp:14-43 -/
def computeREcef2Ned (lat lon : α) (RE2N : M3 α) : Bool × M3 α :=
  if latLonBad lat lon then (false, RE2N)                            -- lines 19-27
  else
    let slat := Flt.sin lat                                          -- lines 30-33
    let clat := Flt.cos lat
    let slon := Flt.sin lon
    let clon := Flt.cos lon
    (true, !![-slat * clon, -slat * slon, clat;                      -- lines 36-38
              -slon, clon, Flt.lit 0;
              -clat * clon, -clat * slon, -slat])

/-- `Rotations::computeRNed2Ecef`, src/util/Rotations.cpp:46-75 -/
def computeRNed2Ecef (lat lon : α) (RN2E : M3 α) : Bool × M3 α :=
  if latLonBad lat lon then (false, RN2E)                            -- lines 51-59
  else
    let slat := Flt.sin lat                                          -- lines 62-65
    let clat := Flt.cos lat
    let slon := Flt.sin lon
    let clon := Flt.cos lon
    (true, !![-slat * clon, -slon, -clat * clon;                     -- lines 68-70
              -slat * slon, clon, -clat * slon;
              clat, Flt.lit 0, -slat])

/-- `Rotations::ecef2Lla`, src/util/Rotations.cpp:78-118. Returns the `bool` and lat, lon, alt. -/
def ecef2Lla (rE : V3 α) : Bool × α × α × α :=
  let x := rE 0                                                      -- lines 84-86
  let y := rE 1
  let z := rE 2
  let e := Flt.sqrt (Flt.lit 1 - Flt.powi (Flt.lit 1 - f) 2)         -- line 92
  let ep := Flt.sqrt ((Flt.powi a 2 - Flt.powi b 2) / Flt.powi b 2)  -- line 93
  let p := Flt.sqrt (Flt.powi x 2 + Flt.powi y 2)                    -- line 94
  let th := Flt.atan2 (a * z) (b * p)                                -- line 95
  let lon := Flt.atan2 y x                                           -- line 98
  let latY := z + (Flt.powi ep 2 * b * Flt.powi (Flt.sin th) 3)      -- lines 101-103
  let latX := p - (Flt.powi e 2 * a * Flt.powi (Flt.cos th) 3)
  let lat := Flt.atan2 latY latX
  let N := a / Flt.sqrt (Flt.lit 1 - (Flt.powi e 2 * Flt.powi (Flt.sin lat) 2))  -- lines 106-107
  let alt := (p / Flt.cos lat) - N
  let lon := Flt.fmod lon (Flt.lit 2 * Flt.pi)                       -- lines 110-113
  let lon := if Flt.lt Flt.pi lon then lon - (Flt.lit 2 * Flt.pi) else lon
  (true, lat, lon, alt)

/-- `Rotations::lla2Ecef`, src/util/Rotations.cpp:121-153 -/
def lla2Ecef (lat lon alt : α) (rE : V3 α) : Bool × V3 α :=
  if latLonBad lat lon then (false, rE)                              -- lines 127-135
  else
    let e := Flt.sqrt (Flt.lit 1 - Flt.powi (Flt.lit 1 - f) 2)       -- line 140
    let N := a / Flt.sqrt (Flt.lit 1 - (Flt.powi e 2 * Flt.powi (Flt.sin lat) 2))  -- line 143
    (true, ![(N + alt) * Flt.cos lat * Flt.cos lon,                  -- lines 146-148
             (N + alt) * Flt.cos lat * Flt.sin lon,
             (((Flt.lit 1 - Flt.powi e 2) * N) + alt) * Flt.sin lat])

end NavFuse.Rotations
