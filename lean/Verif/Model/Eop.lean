import Verif.Scalar
import Verif.Outcome

/-! # `Rotations`: Earth orientation parameters (src/util/Rotations.cpp:292-367 and 820-876)

The file system is seen through `FileView`.  `std::stod` is a parameter: `none` means that it throws.  The `int` loop counters do not
overflow (tables with fewer than 2³¹ rows). -/

namespace NavFuse.Rotations

variable {α : Type}

/-- the members of `EOPs`, include/util/Rotations.hpp:274-281 -/
structure Eops (α : Type) where
  mjd : List α
  xPole : List α
  yPole : List α
  ut1Utc : List α
  lod : List α
  taiUtc : List α

/-- the part of a `Rotations` object that changes: `eopsSet_` and `EOPs`, include/util/Rotations.hpp:273-281 -/
structure Obj (α : Type) where
  eopsSet : Bool
  eops : Eops α

/-- a newly constructed object, include/util/Rotations.hpp:273-281 -/
def Obj.fresh : Obj α := ⟨false, ⟨[], [], [], [], [], []⟩⟩

/-- What a path looks like to the two opens in `getEops`: whether `std::ifstream` can open it, and what a `std::fstream` opened for reading
and writing delivers (`none` if that open fails, e.g. for lack of write permission). -/
structure FileView where
  readable : Bool
  readWrite : Option (List Char)

/-- The strings that `while (std::getline(s, x, d))` delivers from a stream holding the given characters: pieces ended by `d` or by the end;
a `d` at the very end is not followed by a further (empty) piece. -/
def getlines (d : Char) : List Char → List (List Char)
  | [] => []
  | c :: cs =>
    if c = d then [] :: getlines d cs
    else match getlines d cs with
      | [] => [[c]]
      | f :: fs => (c :: f) :: fs

/-- the body of the column loop, src/util/Rotations.cpp:325-346 -/
def pushField (stod : List Char → Option α) (t : Eops α) (temp : Nat) (data : List Char) : Out (Eops α) :=
  let num : Out α := match stod data with | some x => .ok x | none => .error .throws
  if temp = 1 then do let e ← num; .ok { t with mjd := t.mjd ++ [e] }
  else if temp = 2 then do let e ← num; .ok { t with xPole := t.xPole ++ [e] }
  else if temp = 3 then do let e ← num; .ok { t with yPole := t.yPole ++ [e] }
  else if temp = 4 then do let e ← num; .ok { t with ut1Utc := t.ut1Utc ++ [e] }
  else if temp = 5 then do let e ← num; .ok { t with lod := t.lod ++ [e] }
  else if temp = 10 then do let e ← num; .ok { t with taiUtc := t.taiUtc ++ [e] }
  else .ok t

/-- the column loop, src/util/Rotations.cpp:322-347, from column `temp` on -/
def pushFields (stod : List Char → Option α) (t : Eops α) (temp : Nat) : List (List Char) → Out (Eops α)
  | [] => .ok t
  | data :: rest => do
    let t ← pushField stod t temp data
    pushFields stod t (temp + 1) rest

/-- the row loop, src/util/Rotations.cpp:315-348 -/
def readRows (stod : List Char → Option α) (t : Eops α) : List (List Char) → Out (Eops α)
  | [] => .ok t
  | line :: rest => do
    let t ← pushFields stod t 0 (getlines ',' line)
    readRows stod t rest

/-- `Rotations::getEops`, src/util/Rotations.cpp:292-367.  The returned `bool` (`none` if an exception escapes) and the object afterwards. -/
def getEops (stod : List Char → Option α) (file : FileView) (obj : Obj α) : Option Bool × Obj α :=
  if !file.readable then (some false, obj)                           -- lines 303-307
  else
    let content := file.readWrite.getD []                            -- lines 308-310; a failed open delivers nothing
    match readRows stod ⟨[], [], [], [], [], []⟩ (getlines '\n' content).tail with  -- lines 313-348
    | .ok t => (some true, ⟨true, t⟩)                                -- lines 354-365
    | .error _ => (none, obj)

/-- checked `std::vector` access -/
def colGet (v : List α) (i : Nat) : Out α :=
  match v[i]? with
  | some x => .ok x
  | none => Out.ub .index

variable [Add α] [Sub α] [Mul α] [Div α] [Neg α] [Flt α]

/-- `astroConst.mjdJ2000`, include/util/Rotations.hpp:264 -/
def mjdJ2000 : α := Flt.lit 51544.5
/-- `astroConst.Arcs`, include/util/Rotations.hpp:268 -/
def arcs : α := (Flt.lit 3600 * Flt.lit 180) / Flt.pi
/-- `astroConst.rad`, include/util/Rotations.hpp:269 -/
def radC : α := Flt.pi / Flt.lit 180

/-- the outputs of `getCurrentEop` -/
structure EopVal (α : Type) where
  xPole : α
  yPole : α
  ut1Utc : α
  lod : α
  taiUtc : α

/-- `Rotations::getCurrentEop`, src/util/Rotations.cpp:820-876; `none` when it returns false (its outputs are then not written) -/
def getCurrentEop (obj : Obj α) (mjd : α) : Out (Option (EopVal α)) :=
  if !obj.eopsSet then .ok none                                      -- lines 828-831
  else
    let E := obj.eops
    let mjdStart := Flt.floor mjd                                    -- line 834
    match E.mjd.findIdx? (fun m => Flt.eq m mjdStart) with           -- lines 835-841
    | none => .ok none                                               -- lines 844-847
    | some idx => do
      let preX ← colGet E.xPole idx                                  -- lines 850-854
      let preY ← colGet E.yPole idx
      let preU ← colGet E.ut1Utc idx
      let preL ← colGet E.lod idx
      let preT ← colGet E.taiUtc idx
      let idx := if idx = E.mjd.length - 1 then idx else idx + 1     -- lines 855-857
      let postX ← colGet E.xPole idx                                 -- lines 858-861
      let postY ← colGet E.yPole idx
      let postU ← colGet E.ut1Utc idx
      let postL ← colGet E.lod idx
      let fixf := mjd - mjdStart                                     -- line 864
      .ok (some {                                                    -- lines 867-871
        xPole := (preX + ((postX - preX) * fixf)) / arcs
        yPole := (preY + ((postY - preY) * fixf)) / arcs
        ut1Utc := preU + ((postU - preU) * fixf)
        lod := preL + ((postL - preL) * fixf)
        taiUtc := preT })

end NavFuse.Rotations
