import Verif.Eigen

/-! # `BatchLeastSquares` (src/filter/BatchLeastSquares.cpp) -/

namespace NavFuse.Lsq

variable {α : Type} [Add α] [Sub α] [Mul α] [Div α] [Neg α] [Flt α]

/-- `BatchLeastSquares::ComputeCostFunction`, src/filter/BatchLeastSquares.cpp:234-260. Returns the `bool` and the new `J`. -/
def computeCostFunction (yk : DVec α) (Hk : DMat α) (xk : DVec α) (J : α) : Out (Bool × α) :=
  let numStates := xk.n                                              -- line 240
  let measBatchSize := yk.n                                          -- line 241
  if Hk.r ≠ measBatchSize ∨ Hk.c ≠ numStates then .ok (false, J)     -- lines 244-248
  else do
    let Hx ← Hk.mulVec xk                                            -- line 251
    let e ← yk.sub Hx
    let ee ← e.dot e                                                 -- line 255 (line 254 stores 0, overwritten)
    return (true, Flt.lit (1/2) * ee)

/-- `BatchLeastSquares::UnweightedLinearLeastSquares`, src/filter/BatchLeastSquares.cpp:18-49. Returns the `bool`, `xk`, `J`. -/
def unweightedLinear (L : LinSolver α) (yk : DVec α) (Hk : DMat α) (xk : DVec α) (J : α) : Out (Bool × DVec α × α) :=
  let numStates := xk.n                                              -- line 24
  let measBatchSize := yk.n                                          -- line 25
  if Hk.r ≠ measBatchSize ∨ Hk.c ≠ numStates then .ok (false, xk, J) -- lines 28-31
  else if Hk.c > Hk.r then .ok (false, xk, J)                        -- lines 32-35
  else do
    let N ← Hk.tr.mul Hk                                             -- line 38
    let b ← Hk.tr.mulVec yk
    let x ← N.ldltSolve L b
    let r ← computeCostFunction yk Hk x J                            -- lines 41-44
    if !r.1 then .ok (false, x, r.2) else return (true, x, r.2)

/-- `BatchLeastSquares::WeightedLinearLeastSquares`, src/filter/BatchLeastSquares.cpp:52-88. -/
def weightedLinear (L : LinSolver α) (yk : DVec α) (Hk Wk : DMat α) (xk : DVec α) (J : α) : Out (Bool × DVec α × α) :=
  let numStates := xk.n                                              -- line 59
  let measBatchSize := yk.n                                          -- line 60
  if Hk.r ≠ measBatchSize ∨ Hk.c ≠ numStates then .ok (false, xk, J) -- lines 63-66
  else if Wk.r ≠ measBatchSize ∨ Wk.c ≠ measBatchSize then .ok (false, xk, J) -- lines 67-70
  else if Hk.c > Hk.r then .ok (false, xk, J)                        -- lines 71-74
  else do
    let HtW ← Hk.tr.mul Wk                                           -- line 77
    let N ← HtW.mul Hk
    let HtW' ← Hk.tr.mul Wk
    let b ← HtW'.mulVec yk
    let x ← N.ldltSolve L b
    let r ← computeCostFunction yk Hk x J                            -- lines 80-83
    if !r.1 then .ok (false, x, r.2) else return (true, x, r.2)

/-- The two class functions that the user is told to replace: `ComputePredictedNonlinearMeasurement` and `RelinearizeH`.
Given the state and the old value of the output they return the `bool` and the new value. -/
structure MeasModel (α : Type) where
  predicted : DVec α → DVec α → Out (Bool × DVec α)
  relinearize : DVec α → DMat α → Out (Bool × DMat α)

/-- The model as shipped: both functions do nothing and return true, src/filter/BatchLeastSquares.cpp:263-272 and 275-284. -/
def placeholder : MeasModel α where
  predicted _ yx := .ok (true, yx)
  relinearize _ Hk := .ok (true, Hk)

/-- variables of the iteration -/
structure NlState (α : Type) where
  yx : DVec α
  Hk : DMat α
  xk : DVec α
  xkp1 : DVec α
  res : DVec α

/-- outputs of a nonlinear solve: all reference parameters that may change -/
structure NlOut (α : Type) where
  Hk : DMat α
  xk : DVec α
  xkp1 : DVec α
  J : α

/-- A C++ `while` loop whose body may `return false`. `none`: still running after `fuel` rounds. -/
def whileLoop {σ : Type} (cond : σ → Bool) (body : σ → Out (Bool × σ)) : Nat → σ → Option (Out (Bool × σ))
  | 0, s => if cond s then none else some (.ok (true, s))
  | fuel + 1, s =>
    if cond s then
      match body s with
      | .error e => some (.error e)
      | .ok (false, s') => some (.ok (false, s'))
      | .ok (true, s') => whileLoop cond body fuel s'
    else some (.ok (true, s))

/-- loop body of the unweighted solver, src/filter/BatchLeastSquares.cpp:123-146 -/
def bodyU (L : LinSolver α) (M : MeasModel α) (yk : DVec α) (s : NlState α) : Out (Bool × NlState α) := do
  let p ← M.predicted s.xk s.yx                                      -- lines 126-129
  if !p.1 then .ok (false, { s with yx := p.2 })
  else do
    let q ← M.relinearize s.xk s.Hk                                  -- lines 132-135
    if !q.1 then .ok (false, { s with yx := p.2, Hk := q.2 })
    else do
      let N ← q.2.tr.mul q.2                                         -- line 138
      let d ← yk.sub p.2
      let b ← q.2.tr.mulVec d
      let dx ← N.ldltSolve L b
      let x ← s.xk.add dx
      let r ← x.sub s.xk                                             -- line 141
      return (true, { yx := p.2, Hk := q.2, xk := x, xkp1 := x, res := r })  -- line 144

/-- loop body of the weighted solver, src/filter/BatchLeastSquares.cpp:197-220 -/
def bodyW (L : LinSolver α) (M : MeasModel α) (yk : DVec α) (Wk : DMat α) (s : NlState α) : Out (Bool × NlState α) := do
  let p ← M.predicted s.xk s.yx                                      -- lines 200-203
  if !p.1 then .ok (false, { s with yx := p.2 })
  else do
    let q ← M.relinearize s.xk s.Hk                                  -- lines 206-209
    if !q.1 then .ok (false, { s with yx := p.2, Hk := q.2 })
    else do
      let HtW ← q.2.tr.mul Wk                                        -- line 212
      let N ← HtW.mul q.2
      let HtW' ← q.2.tr.mul Wk
      let d ← yk.sub p.2
      let b ← HtW'.mulVec d
      let dx ← N.ldltSolve L b
      let x ← s.xk.add dx
      let r ← x.sub s.xk                                             -- line 215
      return (true, { yx := p.2, Hk := q.2, xk := x, xkp1 := x, res := r })  -- line 218

/-- code after the loop, src/filter/BatchLeastSquares.cpp:149-155 and 223-229 -/
def finish (yk : DVec α) (J : α) : Option (Out (Bool × NlState α)) → Option (Out (Bool × NlOut α))
  | none => none
  | some (.error e) => some (.error e)
  | some (.ok (false, s)) => some (.ok (false, ⟨s.Hk, s.xk, s.xkp1, J⟩))
  | some (.ok (true, s)) => some (do
      let r ← computeCostFunction yk s.Hk s.xkp1 J
      return (r.1, ⟨s.Hk, s.xk, s.xkp1, r.2⟩))

/-- `BatchLeastSquares::UnweightedNonlinearLeastSquares`, src/filter/BatchLeastSquares.cpp:91-157. `none`: not finished after `fuel` rounds. -/
def unweightedNonlinear (L : LinSolver α) (M : MeasModel α) (fuel : Nat) (yk : DVec α) (Hk : DMat α) (xk : DVec α) (eps : α)
    (xkp1 : DVec α) (J : α) : Option (Out (Bool × NlOut α)) :=
  let numStates := xk.n                                              -- line 99
  let measBatchSize := yk.n                                          -- line 100
  if Hk.r ≠ measBatchSize ∨ Hk.c ≠ numStates then some (.ok (false, ⟨Hk, xk, xkp1, J⟩))   -- lines 103-106
  else if xkp1.n ≠ numStates then some (.ok (false, ⟨Hk, xk, xkp1, J⟩))                   -- lines 107-110
  else if Hk.c > Hk.r then some (.ok (false, ⟨Hk, xk, xkp1, J⟩))                          -- lines 111-114
  else match xkp1.sub xk with                                        -- line 120
    | .error e => some (.error e)
    | .ok res =>
      let s0 : NlState α := { yx := ⟨0, Fin.elim0⟩, Hk := Hk, xk := xk, xkp1 := xkp1, res := res }   -- line 117: empty yx
      finish yk J (whileLoop (fun s => Flt.lt eps s.res.norm) (bodyU L M yk) fuel s0)

/-- `BatchLeastSquares::WeightedNonlinearLeastSquares`, src/filter/BatchLeastSquares.cpp:160-231. -/
def weightedNonlinear (L : LinSolver α) (M : MeasModel α) (fuel : Nat) (yk : DVec α) (Hk : DMat α) (xk : DVec α) (Wk : DMat α) (eps : α)
    (xkp1 : DVec α) (J : α) : Option (Out (Bool × NlOut α)) :=
  let numStates := xk.n                                              -- line 169
  let measBatchSize := yk.n                                          -- line 170
  if Hk.r ≠ measBatchSize ∨ Hk.c ≠ numStates then some (.ok (false, ⟨Hk, xk, xkp1, J⟩))   -- lines 173-176
  else if xkp1.n ≠ numStates then some (.ok (false, ⟨Hk, xk, xkp1, J⟩))                   -- lines 177-180
  else if Hk.c > Hk.r then some (.ok (false, ⟨Hk, xk, xkp1, J⟩))                          -- lines 181-183
  else if Wk.r ≠ measBatchSize ∨ Wk.c ≠ measBatchSize then some (.ok (false, ⟨Hk, xk, xkp1, J⟩))  -- lines 184-188
  else match xkp1.sub xk with                                        -- line 194
    | .error e => some (.error e)
    | .ok res =>
      let s0 : NlState α := { yx := ⟨0, Fin.elim0⟩, Hk := Hk, xk := xk, xkp1 := xkp1, res := res }   -- line 191: empty yx
      finish yk J (whileLoop (fun s => Flt.lt eps s.res.norm) (bodyW L M yk Wk) fuel s0)

end NavFuse.Lsq
