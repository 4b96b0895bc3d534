import Verif.Model.Refs
import Verif.Props.KalmanAlias
import Verif.Props.Solvers
import Verif.Props.Geodesy

/-! # Property C136: outputs that share memory with inputs -/

set_option linter.unusedSectionVars false

namespace NavFuse.Props
open Matrix NavFuse.XR NavFuse.Spec NavFuse.Rotations
open NavFuse.Kalman (Store)
open NavFuse.Refs (Mem)

section generic
variable {α : Type} [Add α] [Sub α] [Mul α] [Div α] [Neg α] [Flt α]

/-- the memory after a `Vector3d` was written -/
def set3 (m : Mem α) (r : Nat) (v : V3 α) : Mem α := ((m.set r (v 0)).set (r + 1) (v 1)).set (r + 2) (v 2)
/-- the `Vector3d` at `r` -/
def at3 (m : Mem α) (r : Nat) : V3 α := ![m r, m (r + 1), m (r + 2)]

@[simp] theorem Mem.set_same (m : Mem α) (i : Nat) (x : α) : m.set i x i = x := by simp [Mem.set]
theorem Mem.set_ne (m : Mem α) {i j : Nat} (x : α) (h : j ≠ i) : m.set i x j = m j := by simp [Mem.set, h]
theorem set3_self (m : Mem α) (r : Nat) : set3 m r (at3 m r) = m := by
  funext j
  by_cases h2 : j = r + 2
  · subst h2; simp [set3, at3]
  by_cases h1 : j = r + 1
  · subst h1; simp [set3, at3, Mem.set]
  by_cases h0 : j = r
  · subst h0; simp [set3, at3, Mem.set]
  · simp [set3, Mem.set, h0, h1, h2]

/-- C136. `ecef2Lla`, for every arithmetic: with three different outputs the call stores what it computes from the initial contents of `rE`, also when the
outputs are entries of `rE`, in any order. -/
theorem C136_ecef2Lla (rE lat lon alt : Nat) (m : Mem α) (h1 : lat ≠ lon) (h2 : lat ≠ alt) (h3 : lon ≠ alt) :
    Refs.ecef2Lla rE lat lon alt m = ((Rotations.ecef2Lla (at3 m rE)).1,
      ((m.set lat (Rotations.ecef2Lla (at3 m rE)).2.1).set lon (Rotations.ecef2Lla (at3 m rE)).2.2.1).set alt (Rotations.ecef2Lla (at3 m rE)).2.2.2) := by
  simp only [Refs.ecef2Lla, Rotations.ecef2Lla, at3, cons_val, Prod.mk.injEq, true_and, Mem.set_same, Mem.set_ne (α := α) _ _ h3, Mem.set_ne (α := α) _ _ h1.symm]
  funext j
  split_ifs <;> simp only [Mem.set] <;> split_ifs <;> simp_all

example : (0 : Nat) ≠ 1 ∧ (0 : Nat) ≠ 2 ∧ (1 : Nat) ≠ 2 := by decide

/-- C136. `lla2Ecef`, for every arithmetic: the call stores what it computes from the initial contents if neither the latitude nor the altitude is one of
the first two entries of `rE` and the longitude is not the first. -/
theorem C136_lla2Ecef_partial (lat lon alt rE : Nat) (m : Mem α) (h1 : lat ≠ rE) (h2 : lat ≠ rE + 1) (h3 : lon ≠ rE) (h4 : alt ≠ rE) (h5 : alt ≠ rE + 1) :
    Refs.lla2Ecef lat lon alt rE m = ((Rotations.lla2Ecef (m lat) (m lon) (m alt) (at3 m rE)).1,
      set3 m rE (Rotations.lla2Ecef (m lat) (m lon) (m alt) (at3 m rE)).2) := by
  unfold Refs.lla2Ecef Rotations.lla2Ecef
  split_ifs
  · simp only [set3_self]
  · simp only [set3, cons_val, Mem.set_ne (α := α) _ _ h1, Mem.set_ne (α := α) _ _ h2, Mem.set_ne (α := α) _ _ h3, Mem.set_ne (α := α) _ _ h4, Mem.set_ne (α := α) _ _ h5]

/-- the conditions allow some sharing: latitude and altitude apart, the longitude in the second entry -/
example : (3 : Nat) ≠ 0 ∧ (3 : Nat) ≠ 0 + 1 ∧ (1 : Nat) ≠ 0 ∧ (4 : Nat) ≠ 0 ∧ (4 : Nat) ≠ 0 + 1 := by decide

/-- C136. `simpleGravity`, for every arithmetic and any overlap of the two vectors. -/
theorem C136_simpleGravity (rA gA : Nat) (m : Mem α) :
    Refs.simpleGravity rA gA m = ((Gravity.simpleGravity (at3 m rA)).1, set3 m gA (Gravity.simpleGravity (at3 m rA)).2) := rfl

/-- C136. The dynamics and the integration step of the navigator, for every arithmetic: input and output state may be the same object. -/
theorem C136_dynamics (y f : Nat) (dVN gN : V3 α) (dt : α) (s : Store α) :
    Refs.strapdownDynamics y f dVN gN dt s = (NavUtils.strapdownDynamics (s.vec y) (s.vec f) dVN gN dt).map fun r => (r.1, s.setVec f r.2) := by
  simp only [Refs.strapdownDynamics, NavUtils.strapdownDynamics, map_bind_out]
  rfl

theorem C136_rk4 (ykm1 : Nat) (dt : α) (dVN gN : V3 α) (yk : Nat) (s : Store α) :
    Refs.strapdownRk4 ykm1 dt dVN gN yk s = (NavUtils.strapdownRk4 (s.vec ykm1) dt dVN gN (s.vec yk)).map fun r => (r.1, s.setVec yk r.2) := by
  have e : (false, s) = (false, s.setVec yk (s.vec yk)) := by rw [setVec_self]
  unfold Refs.strapdownRk4 NavUtils.strapdownRk4
  split_ifs
  · exact congrArg Except.ok e
  · exact congrArg Except.ok e
  simp only [map_bind_out]
  refine bind_congr fun r1 => ?_
  split_ifs
  · exact congrArg Except.ok e
  simp only [map_bind_out]
  refine bind_congr fun _ => bind_congr fun r2 => ?_
  split_ifs
  · exact congrArg Except.ok e
  simp only [map_bind_out]
  refine bind_congr fun _ => bind_congr fun r3 => ?_
  split_ifs
  · exact congrArg Except.ok e
  simp only [map_bind_out]
  refine bind_congr fun _ => bind_congr fun r4 => ?_
  split_ifs
  · exact congrArg Except.ok e
  simp only [map_bind_out]
  rfl

/-- C136. The linear estimators, for every arithmetic and solver: correct if the estimate is not the object that holds the measurements. -/
theorem C136_linear_partial (L : LinSolver α) (yk Hk xk : Nat) (J : α) (s : Store α) (h : yk ≠ xk) :
    Refs.unweightedLinear L yk Hk xk J s = (Lsq.unweightedLinear L (s.vec yk) (s.mat Hk) (s.vec xk) J).map fun r => (r.1, r.2.2, s.setVec xk r.2.1) := by
  have e : (false, J, s) = (false, J, s.setVec xk (s.vec xk)) := by rw [setVec_self]
  unfold Refs.unweightedLinear Lsq.unweightedLinear
  dsimp only
  split_ifs
  · exact congrArg Except.ok e
  · exact congrArg Except.ok e
  simp only [map_bind_out, setVec_mat, setVec_same, setVec_ne (α := α) _ _ h]
  refine bind_congr fun _ => bind_congr fun _ => bind_congr fun _ => bind_congr fun r => ?_
  split_ifs <;> rfl

theorem C136_weighted_partial (L : LinSolver α) (yk Hk Wk xk : Nat) (J : α) (s : Store α) (h : yk ≠ xk) :
    Refs.weightedLinear L yk Hk Wk xk J s
      = (Lsq.weightedLinear L (s.vec yk) (s.mat Hk) (s.mat Wk) (s.vec xk) J).map fun r => (r.1, r.2.2, s.setVec xk r.2.1) := by
  have e : (false, J, s) = (false, J, s.setVec xk (s.vec xk)) := by rw [setVec_self]
  unfold Refs.weightedLinear Lsq.weightedLinear
  dsimp only
  split_ifs
  · exact congrArg Except.ok e
  · exact congrArg Except.ok e
  · exact congrArg Except.ok e
  simp only [map_bind_out, setVec_mat, setVec_same, setVec_ne (α := α) _ _ h]
  refine bind_congr fun _ => bind_congr fun _ => bind_congr fun _ => bind_congr fun _ => bind_congr fun _ => bind_congr fun r => ?_
  split_ifs <;> rfl

/-- a loop over related states -/
theorem whileLoop_map {σ τ : Type} (g : σ → τ) (c : σ → Bool) (c' : τ → Bool) (b : σ → Out (Bool × σ)) (b' : τ → Out (Bool × τ))
    (hc : ∀ s, c' (g s) = c s) (hb : ∀ s, b' (g s) = (b s).map fun r => (r.1, g r.2)) (fuel : Nat) (s : σ) :
    Lsq.whileLoop c' b' fuel (g s) = (Lsq.whileLoop c b fuel s).map fun o => o.map fun r => (r.1, g r.2) := by
  induction fuel generalizing s with
  | zero => simp only [Lsq.whileLoop, hc]; split_ifs <;> rfl
  | succ n ih =>
    simp only [Lsq.whileLoop, hc, hb]
    split_ifs
    · rcases b s with e | ⟨_ | _, s'⟩
      · rfl
      · rfl
      · exact ih s'
    · rfl

/-- the caller's memory during the iteration -/
def nlMem (Hk xk xkp1 : Nat) (s : Store α) (n : Lsq.NlState α) : Refs.NlRef α :=
  ⟨n.yx, n.res, ((s.setMat Hk n.Hk).setVec xk n.xk).setVec xkp1 n.xkp1⟩

/-- what the caller finds afterwards -/
def nlResult (Hk xk xkp1 : Nat) (s : Store α) (r : Bool × Lsq.NlOut α) : Bool × α × Store α :=
  (r.1, r.2.J, ((s.setMat Hk r.2.Hk).setVec xk r.2.xk).setVec xkp1 r.2.xkp1)

theorem nl_start (Hk xk xkp1 : Nat) (s : Store α) (yx res : DVec α) :
    (⟨yx, res, s⟩ : Refs.NlRef α) = nlMem Hk xk xkp1 s ⟨yx, s.mat Hk, s.vec xk, s.vec xkp1, res⟩ := by
  have : ((s.setMat Hk (s.mat Hk)).setVec xk (s.vec xk)).setVec xkp1 (s.vec xkp1) = s := by
    rw [setMat_self, setVec_self, setVec_self]
  rw [nlMem, this]

theorem nl_mem {Hk yk xk xkp1 : Nat} (s : Store α) (n : Lsq.NlState α) (h1 : xk ≠ xkp1) (h2 : yk ≠ xk) (h3 : yk ≠ xkp1) :
    (nlMem Hk xk xkp1 s n).mem.vec xk = n.xk ∧ (nlMem Hk xk xkp1 s n).mem.vec yk = s.vec yk ∧ (nlMem Hk xk xkp1 s n).mem.mat Hk = n.Hk
      ∧ (nlMem Hk xk xkp1 s n).mem.vec xkp1 = n.xkp1 := by
  refine ⟨?_, ?_, ?_, ?_⟩
  · rw [nlMem, setVec_ne (α := α) _ _ h1, setVec_same]
  · rw [nlMem, setVec_ne (α := α) _ _ h3, setVec_ne (α := α) _ _ h2, setMat_vec]
  · rw [nlMem, setVec_mat, setVec_mat, setMat_same]
  · rw [nlMem, setVec_same]

theorem setVec_comm (s : Store α) {i j : Nat} (v w : DVec α) (h : i ≠ j) : (s.setVec i v).setVec j w = (s.setVec j w).setVec i v := by
  unfold Store.setVec
  congr 1
  funext k
  by_cases h1 : k = i
  · subst h1; simp [h]
  · simp [h1]

/-- C136. The iterative estimator, for every arithmetic, solver and measurement model: correct if the measurements, the previous and the new estimate are
three different objects. -/
theorem C136_nonlinear_partial (L : LinSolver α) (M : Lsq.MeasModel α) (fuel : Nat) (yk Hk xk : Nat) (eps : α) (xkp1 : Nat) (J : α) (s : Store α)
    (h1 : xk ≠ xkp1) (h2 : yk ≠ xk) (h3 : yk ≠ xkp1) :
    Refs.unweightedNonlinear L M fuel yk Hk xk eps xkp1 J s
      = (Lsq.unweightedNonlinear L M fuel (s.vec yk) (s.mat Hk) (s.vec xk) eps (s.vec xkp1) J).map fun o => o.map (nlResult Hk xk xkp1 s) := by
  have e0 : ∀ J : α, (false, J, s) = nlResult Hk xk xkp1 s (false, ⟨s.mat Hk, s.vec xk, s.vec xkp1, J⟩) := by
    intro J; rw [nlResult, setMat_self, setVec_self, setVec_self]
  have hb : ∀ n : Lsq.NlState α, Refs.bodyU L M yk Hk xk xkp1 (nlMem Hk xk xkp1 s n)
      = (Lsq.bodyU L M (s.vec yk) n).map fun r => (r.1, nlMem Hk xk xkp1 s r.2) := by
    intro n
    obtain ⟨q1, q2, q3, q4⟩ := nl_mem (Hk := Hk) s n h1 h2 h3
    simp only [Refs.bodyU, Lsq.bodyU, q1, q2, q3, map_bind_out, setMat_vec, setMat_same, setVec_same, setVec_ne (α := α) _ _ h1]
    refine bind_congr fun p => ?_
    split_ifs
    · rfl
    simp only [map_bind_out]
    refine bind_congr fun q => ?_
    have eH : (nlMem Hk xk xkp1 s n).mem.setMat Hk q.2 = (nlMem Hk xk xkp1 s { n with Hk := q.2 }).mem := by
      simp only [nlMem, Store.setMat, Store.setVec, Store.mk.injEq, true_and]
      funext j; split_ifs <;> rfl
    split_ifs
    · rw [eH]; rfl
    simp only [map_bind_out]
    refine bind_congr fun _ => bind_congr fun _ => bind_congr fun _ => bind_congr fun _ => bind_congr fun x => bind_congr fun r => ?_
    have : (((nlMem Hk xk xkp1 s n).mem.setMat Hk q.2).setVec xkp1 x).setVec xk x = ((s.setMat Hk q.2).setVec xk x).setVec xkp1 x := by
      rw [eH, nlMem, setVec_setVec, setVec_comm _ _ _ h1.symm, setVec_setVec]
    simp only [this]
    rfl
  unfold Refs.unweightedNonlinear Lsq.unweightedNonlinear
  dsimp only
  split_ifs
  · exact congrArg (fun x => some (Except.ok x)) (e0 J)
  · exact congrArg (fun x => some (Except.ok x)) (e0 J)
  · exact congrArg (fun x => some (Except.ok x)) (e0 J)
  cases (s.vec xkp1).sub (s.vec xk) with
  | error e => rfl
  | ok res =>
    simp only
    rw [nl_start Hk xk xkp1 s, whileLoop_map (nlMem Hk xk xkp1 s) (fun s => Flt.lt eps s.res.norm) _ (Lsq.bodyU L M (s.vec yk)) _ (fun _ => rfl) hb]
    generalize Lsq.whileLoop _ (Lsq.bodyU L M (s.vec yk)) fuel _ = w
    rcases w with _ | e | ⟨_ | _, n⟩
    · rfl
    · rfl
    · rfl
    · obtain ⟨q1, q2, q3, q4⟩ := nl_mem (Hk := Hk) s n h1 h2 h3
      simp only [Option.map_some, Except.map, q2, q3, q4, Lsq.finish]
      cases Lsq.computeCostFunction (s.vec yk) n.Hk n.xkp1 J <;> rfl

/-- C136. The same for the weighted iterative estimator; the weights must not be the object that holds the measurement matrix. -/
theorem C136_weighted_nonlinear_partial (L : LinSolver α) (M : Lsq.MeasModel α) (fuel : Nat) (yk Hk xk Wk : Nat) (eps : α) (xkp1 : Nat) (J : α) (s : Store α)
    (h1 : xk ≠ xkp1) (h2 : yk ≠ xk) (h3 : yk ≠ xkp1) (h4 : Wk ≠ Hk) :
    Refs.weightedNonlinear L M fuel yk Hk xk Wk eps xkp1 J s
      = (Lsq.weightedNonlinear L M fuel (s.vec yk) (s.mat Hk) (s.vec xk) (s.mat Wk) eps (s.vec xkp1) J).map fun o => o.map (nlResult Hk xk xkp1 s) := by
  have e0 : ∀ J : α, (false, J, s) = nlResult Hk xk xkp1 s (false, ⟨s.mat Hk, s.vec xk, s.vec xkp1, J⟩) := by
    intro J; rw [nlResult, setMat_self, setVec_self, setVec_self]
  have hb : ∀ n : Lsq.NlState α, Refs.bodyW L M yk Hk Wk xk xkp1 (nlMem Hk xk xkp1 s n)
      = (Lsq.bodyW L M (s.vec yk) (s.mat Wk) n).map fun r => (r.1, nlMem Hk xk xkp1 s r.2) := by
    intro n
    obtain ⟨q1, q2, q3, q4⟩ := nl_mem (Hk := Hk) s n h1 h2 h3
    have q5 : ∀ H, ((nlMem Hk xk xkp1 s n).mem.setMat Hk H).mat Wk = s.mat Wk := fun H => by
      rw [setMat_ne _ _ h4, nlMem, setVec_mat, setVec_mat, setMat_ne _ _ h4]
    simp only [Refs.bodyW, Lsq.bodyW, q1, q2, q3, q5, map_bind_out, setMat_vec, setMat_same, setVec_same, setVec_ne (α := α) _ _ h1]
    refine bind_congr fun p => ?_
    split_ifs
    · rfl
    simp only [map_bind_out]
    refine bind_congr fun q => ?_
    have eH : (nlMem Hk xk xkp1 s n).mem.setMat Hk q.2 = (nlMem Hk xk xkp1 s { n with Hk := q.2 }).mem := by
      simp only [nlMem, Store.setMat, Store.setVec, Store.mk.injEq, true_and]
      funext j; split_ifs <;> rfl
    split_ifs
    · rw [eH]; rfl
    simp only [map_bind_out]
    refine bind_congr fun _ => bind_congr fun _ => bind_congr fun _ => bind_congr fun _ => bind_congr fun _ => bind_congr fun _ => bind_congr fun x => bind_congr fun r => ?_
    have : (((nlMem Hk xk xkp1 s n).mem.setMat Hk q.2).setVec xkp1 x).setVec xk x = ((s.setMat Hk q.2).setVec xk x).setVec xkp1 x := by
      rw [eH, nlMem, setVec_setVec, setVec_comm _ _ _ h1.symm, setVec_setVec]
    simp only [this]
    rfl
  unfold Refs.weightedNonlinear Lsq.weightedNonlinear
  dsimp only
  split_ifs
  · exact congrArg (fun x => some (Except.ok x)) (e0 J)
  · exact congrArg (fun x => some (Except.ok x)) (e0 J)
  · exact congrArg (fun x => some (Except.ok x)) (e0 J)
  · exact congrArg (fun x => some (Except.ok x)) (e0 J)
  cases (s.vec xkp1).sub (s.vec xk) with
  | error e => rfl
  | ok res =>
    simp only
    rw [nl_start Hk xk xkp1 s, whileLoop_map (nlMem Hk xk xkp1 s) (fun s => Flt.lt eps s.res.norm) _ (Lsq.bodyW L M (s.vec yk) (s.mat Wk)) _ (fun _ => rfl) hb]
    generalize Lsq.whileLoop _ (Lsq.bodyW L M (s.vec yk) (s.mat Wk)) fuel _ = w
    rcases w with _ | e | ⟨_ | _, n⟩
    · rfl
    · rfl
    · rfl
    · obtain ⟨q1, q2, q3, q4⟩ := nl_mem (Hk := Hk) s n h1 h2 h3
      simp only [Option.map_some, Except.map, q2, q3, q4, Lsq.finish]
      cases Lsq.computeCostFunction (s.vec yk) n.Hk n.xkp1 J <;> rfl

end generic

/-- what `lla2Ecef` stores when it is called in place, that is with the three entries of `rE` as latitude, longitude and altitude: the second and third
coordinate are computed with the new first coordinate, a length, as latitude -/
theorem lla2Ecef_in_place (r : Nat) (m : Mem ℝ) (h : InRange (m r) (m (r + 1))) :
    Refs.lla2Ecef r (r + 1) (r + 2) r m = (true, set3 m r
      ![(primeVertical (m r) + m (r + 2)) * Real.cos (m r) * Real.cos (m (r + 1)),
        (primeVertical (m r) + m (r + 2)) * Real.cos ((primeVertical (m r) + m (r + 2)) * Real.cos (m r) * Real.cos (m (r + 1))) * Real.sin (m (r + 1)),
        ((1 - ecc2) * primeVertical (m r) + m (r + 2)) * Real.sin ((primeVertical (m r) + m (r + 2)) * Real.cos (m r) * Real.cos (m (r + 1)))]) := by
  have n1 : r + 1 ≠ r := by omega
  have n2 : r + 2 ≠ r := by omega
  have n3 : r + 2 ≠ r + 1 := by omega
  have n4 : r ≠ r + 1 := by omega
  simp only [Refs.lla2Ecef, Rotations.bad_false h, e_sq, NavUtils.a_R, Mem.set_same, Mem.set_ne (α := ℝ) _ _ n1, Mem.set_ne (α := ℝ) _ _ n2,
    Mem.set_ne (α := ℝ) _ _ n3, Mem.set_ne (α := ℝ) _ _ n4]
  simp only [rsimp]
  rfl

/-- C136 is false of `lla2Ecef`: converting a position in place (`lla2Ecef(r[0], r[1], r[2], r)`) can store a position on the other side of the earth.
Witness: on the equator where the first coordinate is π metres; the second coordinate, more than 6000 km, gets the wrong sign. -/
theorem C136_lla2Ecef_in_place_fails : ∃ (m : Mem ℝ) (Y : ℝ), 6000000 ≤ Y ∧ InRange (m 0) (m 1)
    ∧ (Rotations.lla2Ecef (m 0) (m 1) (m 2) (at3 m 0)).2 1 = Y ∧ (Refs.lla2Ecef 0 1 2 0 m).1 = true ∧ (Refs.lla2Ecef 0 1 2 0 m).2 1 = -Y := by
  have hpi := Real.pi_gt_three
  have hpi4 := Real.pi_le_four
  have hpv : primeVertical 0 = 6378137 := by norm_num [primeVertical, semiMajor]
  have hc : Real.cos (Real.arccos (Real.pi / 6378137)) = Real.pi / 6378137 := Real.cos_arccos (by linarith) (by linarith)
  have hs : 6000000 / 6378137 ≤ Real.sin (Real.arccos (Real.pi / 6378137)) := by
    rw [Real.sin_arccos]
    refine Real.le_sqrt_of_sq_le ?_
    have : (Real.pi / 6378137) ^ 2 ≤ 16 / 6378137 ^ 2 := by rw [div_pow]; gcongr; nlinarith
    nlinarith
  set lon := Real.arccos (Real.pi / 6378137) with hlon
  have hr : InRange 0 lon := ⟨by rw [abs_zero]; positivity, by rw [abs_of_nonneg (Real.arccos_nonneg _)]; exact Real.arccos_le_pi _⟩
  set m : Mem ℝ := fun j => if j = 1 then lon else 0 with hm
  have m0 : m 0 = 0 := rfl
  have m1 : m 1 = lon := rfl
  have m2 : m 2 = 0 := rfl
  have hp := lla2Ecef_in_place 0 m (by rw [zero_add, m0, m1]; exact hr)
  simp only [zero_add] at hp
  refine ⟨m, 6378137 * Real.sin lon, by linarith, hr, ?_, ?_, ?_⟩
  · rw [m0, m1, m2, lla2Ecef_R hr]
    simp [ellPoint, hpv]
  · rw [hp]
  · have e : (6378137 : ℝ) * (Real.pi / 6378137) = Real.pi := by field_simp
    rw [hp, m0, m1, m2, hpv]
    simp [set3, Mem.set, hc, e]

/-- C136 is false of the linear estimators: with the measurement vector as estimate the returned estimate is right, but the reported cost is half the
squared distance of the estimate from the measurements instead of the squared residual, which is zero. -/
theorem C136_linear_in_place_fails {n : Nat} (L : LinSolver ℝ) (hL : L.Correct) (y : Fin n → ℝ) (H : Matrix (Fin n) (Fin n) ℝ) (hH : IsUnit H.det) (yk Hk : Nat)
    (J : ℝ) (s : Store ℝ) (hy : s.vec yk = ⟨n, y⟩) (hm : s.mat Hk = ⟨n, n, H⟩) :
    ∃ x, H *ᵥ x = y ∧ Refs.unweightedLinear L yk Hk yk J s = .ok (true, (∑ i, (x i - y i) ^ 2) / 2, s.setVec yk ⟨n, x⟩) := by
  have hU : IsUnit H := (isUnit_iff_isUnit_det H).2 hH
  have hpd : (Hᵀ * H).PosDef := by
    have := Matrix.PosDef.conjTranspose_mul_self H ((mulVec_injective_iff_isUnit).2 hU)
    rwa [conjTranspose_eq_transpose_of_trivial] at this
  have hx := hL.solve _ (Hᵀ *ᵥ y) hpd
  set x := L.ldltSolve (Hᵀ * H) (Hᵀ *ᵥ y) with hxd
  have hHx : H *ᵥ x = y := by
    rw [← mulVec_mulVec] at hx
    exact mulVec_injective_of_isUnit ((isUnit_transpose _).2 hU) hx
  refine ⟨x, hHx, ?_⟩
  simp only [Refs.unweightedLinear, hy, hm, ne_eq, not_true_eq_false, or_self, if_false, gt_iff_lt, lt_irrefl, osimp, setVec_same, setVec_mat, rsimp, ← hxd, cost_R]
  rw [hHx, if_neg (by simp)]
  congr 2
  simp only [dotProduct, Pi.sub_apply, Prod.mk.injEq, and_true]
  rw [one_div, inv_mul_eq_div]
  exact congrArg (· / 2) (Finset.sum_congr rfl fun i _ => (sq _).symm)

/-- the reported cost is then not the residual: measuring `2 x = 2` -/
example : ∃ (y : Fin 1 → ℝ) (H : Matrix (Fin 1) (Fin 1) ℝ), IsUnit H.det ∧ ∀ x, H *ᵥ x = y → (∑ i, (x i - y i) ^ 2) / 2 = 1 / 2 := by
  refine ⟨![2], !![2], by simp, fun x hx => ?_⟩
  have := congrFun hx 0
  simp [mulVec, dotProduct] at this
  simp [show x 0 = 1 by linarith]
  norm_num

/-- C136 is false of the iterative estimators: if the previous and the new estimate are one object the call returns true and changes nothing, whatever the
measurements and the measurement model are; the residual is the difference of the object and itself. -/
theorem C136_nonlinear_in_place_fails {n k : Nat} (L : LinSolver XR) (M : Lsq.MeasModel XR) (fuel : Nat) (yk Hk xk : Nat) (eps : ℝ) (J : XR) (s : Store XR)
    (heps : 0 ≤ eps) (y : Fin k → ℝ) (H : Matrix (Fin k) (Fin n) ℝ) (x : Fin n → ℝ) (hn : n ≤ k) (hy : s.vec yk = ⟨k, finV y⟩) (hH : s.mat Hk = ⟨k, n, finM H⟩)
    (hx : s.vec xk = ⟨n, finV x⟩) :
    Refs.unweightedNonlinear L M fuel yk Hk xk (fin eps) xk J s = some (.ok (true, fin ((1 / 2) * ((y - H *ᵥ x) ⬝ᵥ (y - H *ᵥ x))), s)) := by
  have hc : ¬ (n > k) := by omega
  have h0 : DVec.norm (⟨n, finV 0⟩ : DVec XR) = fin 0 := by
    simp only [DVec.norm, vnorm, xsimp]
    simp [X_sqrt 0 le_rfl]
  have hw : ∀ b : Refs.NlRef XR → Out (Bool × Refs.NlRef XR), ∀ yx, Lsq.whileLoop (fun s : Refs.NlRef XR => Flt.lt (fin eps) s.res.norm) b fuel
      ⟨yx, ⟨n, finV 0⟩, s⟩ = some (.ok (true, ⟨yx, ⟨n, finV 0⟩, s⟩)) := by
    intro b yx
    have : Flt.lt (fin eps) (fin 0) = false := by rw [X_lt]; exact decide_eq_false (not_lt.2 heps)
    cases fuel <;> simp only [Lsq.whileLoop, h0, this] <;> rfl
  simp only [Refs.unweightedNonlinear, hy, hH, hx, ne_eq, not_true_eq_false, or_self, if_false, hc, osimp, xsimp, sub_self, hw, cost_X]

/-- the estimate that is returned need not be near the least-squares estimate: measuring `x = 1`, starting from 0 -/
example : ∃ (s : Store XR) (y : Fin 1 → ℝ) (H : Matrix (Fin 1) (Fin 1) ℝ) (x : Fin 1 → ℝ), s.vec 0 = ⟨1, finV y⟩ ∧ s.mat 0 = ⟨1, 1, finM H⟩
    ∧ s.vec 1 = ⟨1, finV x⟩ ∧ H *ᵥ x ≠ y ∧ IsUnit H.det := by
  refine ⟨⟨fun i => if i = 0 then ⟨1, finV ![1]⟩ else ⟨1, finV ![0]⟩, fun _ => ⟨1, 1, finM 1⟩⟩, ![1], 1, ![0], rfl, rfl, rfl, ?_, by simp⟩
  intro h
  have := congrFun h 0
  simp at this

end NavFuse.Props
