import Verif.Model.RefsMore
import Verif.Props.Refs

/-! # Property C163: shared memory in the remaining routines -/

set_option linter.unusedSectionVars false

namespace NavFuse.Props
open Matrix NavFuse.XR NavFuse.Spec NavFuse.Rotations
open NavFuse.Kalman (Store)
open NavFuse.Refs (Mem)

section generic
variable {α : Type} [Add α] [Sub α] [Mul α] [Div α] [Neg α] [Flt α]

/-- the `Matrix3d` at `R`, stored column by column -/
def at33 (m : Mem α) (R : Nat) : M3 α := of fun i j => m (R + (i.val + 3 * j.val))
/-- the memory after a `Matrix3d` was written -/
def put33 (m : Mem α) (R : Nat) (A : M3 α) : Mem α :=
  fun k => if h : R ≤ k ∧ k < R + 9 then A ⟨(k - R) % 3, by omega⟩ ⟨(k - R) / 3, by omega⟩ else m k

theorem put33_self (m : Mem α) (R : Nat) : put33 m R (at33 m R) = m := by
  funext k
  unfold put33 at33
  split_ifs with h
  · simp only [of_apply]
    congr 1
    omega
  · rfl

theorem fill33_eq (m : Mem α) (R : Nat) (A : M3 α) : Refs.fill33 R A m = put33 m R A := by
  funext k
  by_cases h : R ≤ k ∧ k < R + 9
  · obtain ⟨d, hd, rfl⟩ : ∃ d, d < 9 ∧ k = R + d := ⟨k - R, by omega, by omega⟩
    simp only [put33, h, and_self, dite_true, Refs.fill33, Refs.set33, Mem.set, Nat.add_left_cancel_iff]
    interval_cases d <;> simp
  · simp only [put33, h, dite_false, Refs.fill33, Refs.set33, Mem.set]
    repeat rw [if_neg (by omega)]

/-- C163. `gravityNed`, for every arithmetic: latitude and height may be entries of the output. -/
theorem C163_gravityNed (lat h gN : Nat) (m : Mem α) :
    Refs.gravityNed lat h gN m = ((Gravity.gravityNed (m lat) (m h)).1, set3 m gN (Gravity.gravityNed (m lat) (m h)).2) := rfl

/-- C163. The rotations between ECEF and NED, for every arithmetic: the angles may be entries of the output. -/
theorem C163_ecef2Ned (lat lon R : Nat) (m : Mem α) :
    Refs.computeREcef2Ned lat lon R m = ((Rotations.computeREcef2Ned (m lat) (m lon) (at33 m R)).1,
      put33 m R (Rotations.computeREcef2Ned (m lat) (m lon) (at33 m R)).2) := by
  unfold Refs.computeREcef2Ned Rotations.computeREcef2Ned
  split_ifs
  · simp only [put33_self]
  · simp only [fill33_eq]

theorem C163_ned2Ecef (lat lon R : Nat) (m : Mem α) :
    Refs.computeRNed2Ecef lat lon R m = ((Rotations.computeRNed2Ecef (m lat) (m lon) (at33 m R)).1,
      put33 m R (Rotations.computeRNed2Ecef (m lat) (m lon) (at33 m R)).2) := by
  unfold Refs.computeRNed2Ecef Rotations.computeRNed2Ecef
  split_ifs
  · simp only [put33_self]
  · simp only [fill33_eq]

theorem Mem.set_set (m : Mem α) (i : Nat) (x y : α) : (m.set i x).set i y = m.set i y := by
  funext j; simp only [Mem.set]; split_ifs <;> rfl
theorem Mem.set_comm (m : Mem α) {i j : Nat} (h : i ≠ j) (x y : α) : (m.set i x).set j y = (m.set j y).set i x := by
  funext k; simp only [Mem.set]; split_ifs <;> simp_all

/-- C163. `nutationAngles`, for every arithmetic: either output may be the object that holds the date. -/
theorem C163_nutation (mjdTt dpsi deps : Nat) (h : dpsi ≠ deps) (m : Mem α) :
    Refs.nutationAngles mjdTt dpsi deps m = (true, (m.set dpsi (Rotations.nutationAngles (m mjdTt)).1).set deps (Rotations.nutationAngles (m mjdTt)).2) := by
  have fold : ∀ (L : List NutRow) (u v : NutRow → α) (a b : α),
      L.foldl (fun (m : Mem α) c => (m.set dpsi (m dpsi + u c)).set deps ((m.set dpsi (m dpsi + u c)) deps + v c)) ((m.set dpsi a).set deps b)
        = (m.set dpsi (L.foldl (fun (s : α × α) c => (s.1 + u c, s.2 + v c)) (a, b)).1).set deps (L.foldl (fun (s : α × α) c => (s.1 + u c, s.2 + v c)) (a, b)).2 := by
    intro L u v
    induction L with
    | nil => intro a b; rfl
    | cons c L ih =>
      intro a b
      rw [List.foldl_cons, List.foldl_cons, ← ih]
      congr 1
      rw [Mem.set_ne _ _ h, Mem.set_same, Mem.set_ne _ _ h.symm, Mem.set_same, Mem.set_comm _ h.symm, Mem.set_set, Mem.set_set]
  unfold Refs.nutationAngles Rotations.nutationAngles
  generalize nutTable = L
  dsimp only
  rw [fold]
  rw [Mem.set_ne _ _ h, Mem.set_same, Mem.set_comm _ h.symm, Mem.set_set, Mem.set_same, Mem.set_set]

/-- the memory after the Earth orientation parameters were written -/
def putEop (m : Mem α) (xPole yPole ut1Utc lod taiUtc : Nat) : Option (EopVal α) → Bool × Mem α
  | none => (false, m)
  | some v => (true, ((((m.set xPole v.xPole).set yPole v.yPole).set ut1Utc v.ut1Utc).set lod v.lod).set taiUtc v.taiUtc)

/-- C163. `getCurrentEop`, for every arithmetic: any output may be the object that holds the date. -/
theorem C163_eop (obj : Obj α) (mjd xPole yPole ut1Utc lod taiUtc : Nat) (m : Mem α) :
    Refs.getCurrentEop obj mjd xPole yPole ut1Utc lod taiUtc m = (Rotations.getCurrentEop obj (m mjd)).map (putEop m xPole yPole ut1Utc lod taiUtc) := by
  unfold Refs.getCurrentEop Rotations.getCurrentEop
  split_ifs
  · rfl
  dsimp only
  cases List.findIdx? (fun d => Flt.eq d (Flt.floor (m mjd))) obj.eops.mjd with
  | none => rfl
  | some k => simp only [map_bind_out]; rfl

/-- C163. `computeQuaternionFromRotationVec`, for every arithmetic and any two objects. -/
theorem C163_quaternion (phi q : Nat) (s : Store α) :
    Refs.computeQuaternionFromRotationVec phi q s
      = (Attitude.computeQuaternionFromRotationVec (s.vec phi) (s.vec q)).map fun r => (r.1, s.setVec q r.2) := by
  have e : (false, s) = (false, s.setVec q (s.vec q)) := by rw [setVec_self]
  unfold Refs.computeQuaternionFromRotationVec Attitude.computeQuaternionFromRotationVec
  split_ifs
  · exact congrArg Except.ok e
  · exact congrArg Except.ok e
  simp only [map_bind_out, setVec_same, setVec_setVec]
  rfl

/-- one object in both places is refused, whatever its size, and left as it is -/
theorem C163_quaternion_same (q : Nat) (s : Store α) : Refs.computeQuaternionFromRotationVec q q s = .ok (false, s) := by
  unfold Refs.computeQuaternionFromRotationVec
  split_ifs with h1 h2
  · rfl
  · rfl
  · omega

/-- C163. The three fine alignment calls, for every arithmetic, solver and choice of objects: the state and covariance may be updated in place, and the
scalars may be entries of the state or the covariance. -/
theorem C163_alignPredict (lat wE g r : Store α → α) (xk Pk xkp1 Pkp1 : Nat) (s : Store α) :
    Refs.fineAlignmentPredict lat wE g r xk Pk xkp1 Pkp1 s
      = (Init.fineAlignmentPredict (lat s) (wE s) (g s) (r s) (s.vec xk) (s.mat Pk) (s.vec xkp1) (s.mat Pkp1)).map (Store.result s xkp1 Pkp1) := by
  unfold Refs.fineAlignmentPredict Init.fineAlignmentPredict
  dsimp only
  split_ifs
  iterate 3 exact congrArg Except.ok (result_self s xkp1 Pkp1).symm
  have a1 : Pk ≠ Pk + Pkp1 + 1 := by omega
  have a2 : Pk ≠ Pk + Pkp1 + 2 := by omega
  have a3 : Pkp1 ≠ Pk + Pkp1 + 1 := by omega
  have a4 : Pkp1 ≠ Pk + Pkp1 + 2 := by omega
  have a5 : Pk + Pkp1 + 1 ≠ Pk + Pkp1 + 2 := by omega
  rw [C82_predict_alias]
  simp only [setMat_vec, setMat_same, setMat_ne (α := α) _ _ a1, setMat_ne (α := α) _ _ a2, setMat_ne (α := α) _ _ a3, setMat_ne (α := α) _ _ a4, setMat_ne (α := α) _ _ a5]
  rw [bind_map_out, map_bind_out]
  refine bind_congr fun q => ?_
  have e : (((Store.result ((s.setMat (Pk + Pkp1 + 1) ⟨8, 8, Init.phi (lat s) (wE s) (g s) (r s)⟩).setMat (Pk + Pkp1 + 2) (DMat.zero (s.vec xk).n (s.vec xk).n)) xkp1 Pkp1 q).2.setMat
      (Pk + Pkp1 + 1) (s.mat (Pk + Pkp1 + 1))).setMat (Pk + Pkp1 + 2) (s.mat (Pk + Pkp1 + 2))) = (Store.result s xkp1 Pkp1 q).2 := by
    unfold Store.result Store.setMat Store.setVec
    congr 1
    funext j
    dsimp only
    split_ifs <;> first | rfl | (exfalso; omega) | (congr 1; omega)
  simp only [e]
  rcases q with ⟨b, x, P⟩
  cases b <;> rfl

theorem align_restore (s : Store α) (xk Pk xkp1 Pkp1 : Nat) (Z : DVec α) (H R : DMat α) (q : Bool × DVec α × DMat α) :
    (((Store.result (((s.setVec (xk + xkp1 + 1) Z).setMat (Pk + Pkp1 + 1) H).setMat (Pk + Pkp1 + 2) R) xkp1 Pkp1 q).2.setVec (xk + xkp1 + 1) (s.vec (xk + xkp1 + 1))).setMat
      (Pk + Pkp1 + 1) (s.mat (Pk + Pkp1 + 1))).setMat (Pk + Pkp1 + 2) (s.mat (Pk + Pkp1 + 2)) = (Store.result s xkp1 Pkp1 q).2 := by
  unfold Store.result Store.setMat Store.setVec
  congr 1
  · funext j
    dsimp only
    split_ifs <;> first | rfl | (exfalso; omega) | (congr 1; omega)
  · funext j
    dsimp only
    split_ifs <;> first | rfl | (exfalso; omega) | (congr 1; omega)

theorem C163_alignAzimuth (L : LinSolver α) (azMeas dtAz azEst sigAz : Store α → α) (xk Pk xkp1 Pkp1 : Nat) (s : Store α) :
    Refs.fineAlignmentAzimuthUpdate L azMeas dtAz azEst sigAz xk Pk xkp1 Pkp1 s
      = (Init.fineAlignmentAzimuthUpdate L (azMeas s) (dtAz s) (azEst s) (sigAz s) (s.vec xk) (s.mat Pk) (s.vec xkp1) (s.mat Pkp1)).map (Store.result s xkp1 Pkp1) := by
  unfold Refs.fineAlignmentAzimuthUpdate Init.fineAlignmentAzimuthUpdate
  dsimp only
  split_ifs
  iterate 3 exact congrArg Except.ok (result_self s xkp1 Pkp1).symm
  have a1 : Pk ≠ Pk + Pkp1 + 1 := by omega
  have a2 : Pk ≠ Pk + Pkp1 + 2 := by omega
  have a3 : Pkp1 ≠ Pk + Pkp1 + 1 := by omega
  have a4 : Pkp1 ≠ Pk + Pkp1 + 2 := by omega
  have a5 : Pk + Pkp1 + 1 ≠ Pk + Pkp1 + 2 := by omega
  have a6 : xk ≠ xk + xkp1 + 1 := by omega
  have a7 : xkp1 ≠ xk + xkp1 + 1 := by omega
  rw [C82_update_alias]
  simp only [setMat_vec, setVec_mat, setVec_same, setVec_ne (α := α) _ _ a6, setVec_ne (α := α) _ _ a7, setMat_same, setMat_ne (α := α) _ _ a1, setMat_ne (α := α) _ _ a2, setMat_ne (α := α) _ _ a3,
    setMat_ne (α := α) _ _ a4, setMat_ne (α := α) _ _ a5]
  rw [bind_map_out, map_bind_out]
  refine bind_congr fun q => ?_
  simp only [align_restore (α := α)]
  rcases q with ⟨b, x, P⟩
  cases b <;> rfl

theorem C163_alignVelocity (L : LinSolver α) (velMeas : Fin 2 → α) (dtVel sigVel : Store α → α) (xk Pk xkp1 Pkp1 : Nat) (s : Store α) :
    Refs.fineAlignmentVelocityUpdate L velMeas dtVel sigVel xk Pk xkp1 Pkp1 s
      = (Init.fineAlignmentVelocityUpdate L velMeas (dtVel s) (sigVel s) (s.vec xk) (s.mat Pk) (s.vec xkp1) (s.mat Pkp1)).map (Store.result s xkp1 Pkp1) := by
  unfold Refs.fineAlignmentVelocityUpdate Init.fineAlignmentVelocityUpdate
  dsimp only
  split_ifs
  iterate 3 exact congrArg Except.ok (result_self s xkp1 Pkp1).symm
  have a1 : Pk ≠ Pk + Pkp1 + 1 := by omega
  have a2 : Pk ≠ Pk + Pkp1 + 2 := by omega
  have a3 : Pkp1 ≠ Pk + Pkp1 + 1 := by omega
  have a4 : Pkp1 ≠ Pk + Pkp1 + 2 := by omega
  have a5 : Pk + Pkp1 + 1 ≠ Pk + Pkp1 + 2 := by omega
  have a6 : xk ≠ xk + xkp1 + 1 := by omega
  have a7 : xkp1 ≠ xk + xkp1 + 1 := by omega
  rw [C82_update_alias]
  simp only [setMat_vec, setVec_mat, setVec_same, setVec_ne (α := α) _ _ a6, setVec_ne (α := α) _ _ a7, setMat_same, setMat_ne (α := α) _ _ a1, setMat_ne (α := α) _ _ a2, setMat_ne (α := α) _ _ a3,
    setMat_ne (α := α) _ _ a4, setMat_ne (α := α) _ _ a5]
  rw [bind_map_out, map_bind_out]
  refine bind_congr fun q => ?_
  simp only [align_restore (α := α)]
  rcases q with ⟨b, x, P⟩
  cases b <;> rfl

/-- the memory after the two matrices of the error dynamics were written -/
def putFG (s : Store α) (F G : Nat) (r : Bool × DMat α × DMat α) : Bool × Store α := (r.1, (s.setMat F r.2.1).setMat G r.2.2)

theorem putFG_self (s : Store α) (F G : Nat) : putFG s F G (false, s.mat F, s.mat G) = (false, s) := by
  unfold putFG; rw [setMat_self, setMat_self]

theorem block_last {β : Type} (G p q : Nat) (B : M3 α) (t : Store α) (C : DMat α) (k : Store α → Out β) :
    (Refs.setBlock G p q B (t.setMat G C) >>= k) = C.setBlock3 p q B >>= fun M => k (t.setMat G M) := by
  unfold Refs.setBlock
  rw [setMat_same, bind_assoc]
  refine bind_congr fun M => ?_
  rw [pure_bind, setMat_setMat]

theorem setMat_comm (s : Store α) {i j : Nat} (h : i ≠ j) (A B : DMat α) : (s.setMat i A).setMat j B = (s.setMat j B).setMat i A := by
  unfold Store.setMat; congr 1; funext k; dsimp only; split_ifs <;> simp_all

theorem block_first {β : Type} {F G : Nat} (h : F ≠ G) (p q : Nat) (B : M3 α) (s : Store α) (A C : DMat α) (k : Store α → Out β) :
    (Refs.setBlock F p q B ((s.setMat F A).setMat G C) >>= k) = A.setBlock3 p q B >>= fun M => k ((s.setMat F M).setMat G C) := by
  rw [setMat_comm s h, block_last]
  refine bind_congr fun M => ?_
  rw [setMat_comm s h]

/-- C163. The error dynamics, for every arithmetic, written to two different objects. -/
theorem C163_inertial (aI : V3 α) (GI RS2I : M3 α) {F G : Nat} (h : F ≠ G) (s : Store α) :
    Refs.inertialErrorDynamics aI GI RS2I F G s = (Pva.inertialErrorDynamics aI GI RS2I (s.mat F) (s.mat G)).map (putFG s F G) := by
  unfold Refs.inertialErrorDynamics Pva.inertialErrorDynamics
  split_ifs
  · exact congrArg Except.ok (putFG_self s F G).symm
  · exact congrArg Except.ok (putFG_self s F G).symm
  dsimp only
  split_ifs
  · rfl
  simp only [block_first (α := α) h, block_last (α := α), map_bind_out]
  rfl

theorem C163_ecef (aE : V3 α) (GE RS2E OEI_E : M3 α) {F G : Nat} (h : F ≠ G) (s : Store α) :
    Refs.ecefErrorDynamics aE GE RS2E OEI_E F G s = (Pva.ecefErrorDynamics aE GE RS2E OEI_E (s.mat F) (s.mat G)).map (putFG s F G) := by
  unfold Refs.ecefErrorDynamics Pva.ecefErrorDynamics
  split_ifs
  · exact congrArg Except.ok (putFG_self s F G).symm
  · exact congrArg Except.ok (putFG_self s F G).symm
  dsimp only
  rw [block_first h, map_bind_out]
  refine bind_congr fun _ => ?_
  split_ifs
  · rfl
  simp only [block_first (α := α) h, block_last (α := α), map_bind_out]
  rfl

theorem C163_ned (aN : V3 α) (GN RS2N : M3 α) (lla llaDot llaDDot : V3 α) (F G : Nat) (s : Store α) :
    Refs.nedErrorDynamics aN GN RS2N lla llaDot llaDDot F G s
      = (Pva.nedErrorDynamics aN GN RS2N lla llaDot llaDDot (s.mat F) (s.mat G)).map (putFG s F G) := by
  unfold Refs.nedErrorDynamics Pva.nedErrorDynamics
  split_ifs
  · exact congrArg Except.ok (putFG_self s F G).symm
  · exact congrArg Except.ok (putFG_self s F G).symm
  simp only [block_last (α := α), map_bind_out]
  rfl

end generic

/-- a memory of 9x9 zero matrices -/
noncomputable def zeroStore : Store ℝ := ⟨fun _ => ⟨0, Fin.elim0⟩, fun _ => DMat.zero 9 9⟩

/-- Two different outputs are needed: with one object for `F` and `G` the inertial error dynamics return success and leave a matrix that is neither of the two. -/
theorem C163_inertial_same : ∃ s', Refs.inertialErrorDynamics ![0, 0, 1] 0 1 0 0 zeroStore = .ok (true, s')
    ∧ ∀ F G, Pva.inertialErrorDynamics ![0, 0, 1] 0 1 (zeroStore.mat 0) (zeroStore.mat 0) = .ok (true, F, G) → s'.mat 0 ≠ F ∧ s'.mat 0 ≠ G := by
  obtain ⟨s', e1, e2, e3⟩ : ∃ s', Refs.inertialErrorDynamics ![0, 0, 1] 0 1 0 0 zeroStore = .ok (true, s') ∧ (s'.mat 0).get 0 0 = .ok (-1) ∧ (s'.mat 0).get 6 3 = .ok 1 := by
    refine ⟨_, rfl, ?_, ?_⟩
    · show (.ok (-((1 : M3 ℝ) 0 0)) : Out ℝ) = _; simp
    · show (.ok (Flt.lit 1 : ℝ) : Out ℝ) = _; simp [Flt.lit]
  refine ⟨s', e1, fun F G h => ?_⟩
  have f1 : F.get 0 0 = .ok 0 := by
    obtain ⟨rfl⟩ : F = _ := by
      injection h with h; injection h with _ h; injection h with h _; exact h.symm
    show (.ok (Flt.lit 0 : ℝ) : Out ℝ) = _; simp [Flt.lit]
  have g1 : G.get 6 3 = .ok 0 := by
    obtain ⟨rfl⟩ : G = _ := by
      injection h with h; injection h with _ h; injection h with _ h; exact h.symm
    show (.ok (Flt.lit 0 : ℝ) : Out ℝ) = _; simp [Flt.lit]
  constructor <;> rintro rfl
  · rw [f1] at e2; simp at e2
  · rw [g1] at e3; simp at e3

/-- different output objects exist, as the theorems above ask -/
example : (0 : Nat) ≠ 1 := by decide

end NavFuse.Props
