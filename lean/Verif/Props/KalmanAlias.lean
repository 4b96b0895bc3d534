import Verif.Model.KalmanStore
import Verif.Lemmas.KalmanEval

/-! # Property C82: passing the same object as input and output -/

set_option linter.unusedSectionVars false

namespace NavFuse.Props
open Kalman

variable {α : Type} [Add α] [Sub α] [Mul α] [Div α] [Neg α] [Flt α]

/-- the store after the two outputs received their values -/
def Store.result (s : Store α) (x P : Nat) (r : Bool × DVec α × DMat α) : Bool × Store α := (r.1, (s.setVec x r.2.1).setMat P r.2.2)

theorem setVec_self (s : Store α) (i : Nat) : s.setVec i (s.vec i) = s := by
  unfold Store.setVec; congr; funext j; split <;> simp_all
theorem setMat_self (s : Store α) (i : Nat) : s.setMat i (s.mat i) = s := by
  unfold Store.setMat; congr; funext j; split <;> simp_all
theorem result_self (s : Store α) (x P : Nat) : Store.result s x P (false, s.vec x, s.mat P) = (false, s) := by
  unfold Store.result; rw [setVec_self]; exact congrArg _ (setMat_self s P)
@[simp] theorem setVec_mat (s : Store α) (i : Nat) (v : DVec α) : (s.setVec i v).mat = s.mat := rfl
@[simp] theorem setMat_vec (s : Store α) (i : Nat) (A : DMat α) : (s.setMat i A).vec = s.vec := rfl
@[simp] theorem setVec_same (s : Store α) (i : Nat) (v : DVec α) : (s.setVec i v).vec i = v := by simp [Store.setVec]
@[simp] theorem setMat_same (s : Store α) (i : Nat) (v : DMat α) : (s.setMat i v).mat i = v := by simp [Store.setMat]
theorem setVec_ne (s : Store α) {i j : Nat} (v : DVec α) (h : j ≠ i) : (s.setVec i v).vec j = s.vec j := by simp [Store.setVec, h]
theorem setMat_ne (s : Store α) {i j : Nat} (v : DMat α) (h : j ≠ i) : (s.setMat i v).mat j = s.mat j := by simp [Store.setMat, h]
@[simp] theorem setVec_setVec (s : Store α) (i : Nat) (v w : DVec α) : (s.setVec i v).setVec i w = s.setVec i w := by
  unfold Store.setVec; congr; funext j; by_cases h : j = i <;> simp [h]
@[simp] theorem setMat_setMat (s : Store α) (i : Nat) (v w : DMat α) : (s.setMat i v).setMat i w = s.setMat i w := by
  unfold Store.setMat; congr; funext j; by_cases h : j = i <;> simp [h]

theorem map_bind_out {β γ δ : Type} (o : Out β) (f : β → Out γ) (g : γ → δ) : (o >>= f).map g = o >>= fun b => (f b).map g := by
  cases o <;> rfl
theorem bind_map_out {β γ δ : Type} (o : Out β) (g : β → γ) (f : γ → Out δ) : (o.map g >>= f) = o >>= fun b => f (g b) := by
  cases o <;> rfl

/-- C82 (prediction), for every scalar arithmetic and every choice of (possibly equal) objects: the two output objects end up with the values the
call computes from the initial contents, everything else is unchanged. -/
theorem C82_predict_alias (xk Pk Phik Qk xkp1 Pkp1 : Nat) (s : Store α) :
    filterPredictS xk Pk Phik Qk xkp1 Pkp1 s
      = (filterPredict (s.vec xk) (s.mat Pk) (s.mat Phik) (s.mat Qk) (s.vec xkp1) (s.mat Pkp1)).map (Store.result s xkp1 Pkp1) := by
  unfold filterPredictS filterPredict
  simp only
  split_ifs
  iterate 5 exact congrArg Except.ok (result_self s xkp1 Pkp1).symm
  simp only [map_bind_out, setVec_mat]
  rfl

/-- C82 (update), for every scalar arithmetic, solver and choice of (possibly equal) objects. -/
theorem C82_update_alias (L : LinSolver α) (xk Pk zk H Rk xkp1 Pkp1 : Nat) (s : Store α) :
    filterUpdateS L xk Pk zk H Rk xkp1 Pkp1 s
      = (filterUpdate L (s.vec xk) (s.mat Pk) (s.vec zk) (s.mat H) (s.mat Rk) (s.vec xkp1) (s.mat Pkp1)).map
          (Store.result s xkp1 Pkp1) := by
  unfold filterUpdateS filterUpdate
  simp only
  split_ifs
  iterate 5 exact congrArg Except.ok (result_self s xkp1 Pkp1).symm
  simp only [map_bind_out, setVec_mat]
  rfl

theorem accumMeanS_eq (W A out : Nat) (h : W ≠ out) (l : List Nat) (s : Store α) :
    accumMeanS W A out l s = (accumMean (s.vec W) (s.mat A) l (s.vec out)).map (fun v => s.setVec out v) := by
  induction l generalizing s with
  | nil => simp only [accumMeanS, accumMean, Except.map, setVec_self]
  | cons i l ih =>
    simp only [accumMeanS, accumMean, map_bind_out]
    refine congrArg _ (funext fun w => ?_)
    refine congrArg _ (funext fun c => ?_)
    refine congrArg _ (funext fun a => ?_)
    rw [ih]
    simp only [setVec_ne s a h, setVec_mat, setVec_same, setVec_setVec]

theorem accumScatterS_eq (W A a out : Nat) (h : A ≠ out) (l : List Nat) (s : Store α) :
    accumScatterS W A a out l s
      = (accumScatter (s.vec W) (s.mat A) (s.vec a) (s.mat A) (s.vec a) l (s.mat out)).map (fun v => s.setMat out v) := by
  induction l generalizing s with
  | nil => simp only [accumScatterS, accumScatter, Except.map, setMat_self]
  | cons i l ih =>
    simp only [accumScatterS, accumScatter, map_bind_out]
    refine congrArg _ (funext fun w => ?_)
    refine congrArg _ (funext fun ca => ?_)
    refine congrArg _ (funext fun da => ?_)
    refine congrArg _ (funext fun cb => ?_)
    refine congrArg _ (funext fun db => ?_)
    refine congrArg _ (funext fun acc => ?_)
    rw [ih]
    simp only [setMat_ne s acc h, setMat_vec, setMat_same, setMat_setMat]

/-- C82 (UKF prediction), for every scalar arithmetic and every choice of (possibly equal) objects. -/
theorem C82_ukfPredict_alias (Wi yi Qk xkp1 Pkp1 : Nat) (s : Store α) :
    filterUkfPredictS Wi yi Qk xkp1 Pkp1 s
      = (filterUkfPredict (s.vec Wi) (s.mat yi) (s.mat Qk) (s.vec xkp1) (s.mat Pkp1)).map (Store.result s xkp1 Pkp1) := by
  unfold filterUkfPredictS filterUkfPredict
  simp only
  split_ifs with h1 h2 h3 h4
  iterate 4 exact congrArg Except.ok (result_self s xkp1 Pkp1).symm
  have hW : Wi ≠ xkp1 := by rintro rfl; omega
  have hY : yi ≠ Pkp1 := by rintro rfl; omega
  rw [accumMeanS_eq Wi yi xkp1 hW]
  simp only [map_bind_out, setVec_ne s _ hW, setVec_mat, setVec_same, setVec_setVec, bind_map_out]
  refine congrArg _ (funext fun x' => ?_)
  rw [accumScatterS_eq Wi yi xkp1 Pkp1 hY]
  simp only [setVec_ne s _ hW, setVec_mat, setVec_same, setMat_vec, setMat_same, setMat_ne (s.setVec xkp1 x') _ hY, setMat_setMat, bind_map_out]
  rfl

/-- C82 (UKF update), for every scalar arithmetic, solver and choice of (possibly equal) objects. -/
theorem C82_ukfUpdate_alias (L : LinSolver α) (xk Pk yi Wi zi zk Rk xkp1 Pkp1 : Nat) (s : Store α) :
    filterUkfUpdateS L xk Pk yi Wi zi zk Rk xkp1 Pkp1 s
      = (filterUkfUpdate L (s.vec xk) (s.mat Pk) (s.mat yi) (s.vec Wi) (s.mat zi) (s.vec zk) (s.mat Rk) (s.vec xkp1) (s.mat Pkp1)).map
          (Store.result s xkp1 Pkp1) := by
  unfold filterUkfUpdateS filterUkfUpdate
  simp only
  split_ifs
  iterate 7 exact congrArg Except.ok (result_self s xkp1 Pkp1).symm
  simp only [map_bind_out, setVec_mat]
  refine congrArg _ (funext fun zhat => ?_)
  refine congrArg _ (funext fun S => ?_)
  refine congrArg _ (funext fun T => ?_)
  refine congrArg _ (funext fun Si => ?_)
  refine congrArg _ (funext fun K => ?_)
  split_ifs
  · exact congrArg Except.ok (result_self s xkp1 Pkp1).symm
  · simp only [map_bind_out]; rfl

/-- C82, the everyday case: `filterUpdate(x, P, z, H, R, x, P)` with one state object and one covariance object, at ℝ or any arithmetic. -/
theorem C82_update_in_place (L : LinSolver α) (x P z H R : Nat) (hH : H ≠ P) (hR : R ≠ P) (hz : z ≠ x) (s : Store α)
    (x' : DVec α) (P' : DMat α) (xo : DVec α) (Po : DMat α) (hxo : xo.n = (s.vec x).n) (hPo : Po.r = (s.mat P).r ∧ Po.c = (s.mat P).c)
    (h : filterUpdate L (s.vec x) (s.mat P) (s.vec z) (s.mat H) (s.mat R) xo Po = .ok (true, x', P')) :
    ∃ s', filterUpdateS L x P z H R x P s = .ok (true, s') ∧ s'.vec x = x' ∧ s'.mat P = P'
      ∧ s'.vec z = s.vec z ∧ s'.mat H = s.mat H ∧ s'.mat R = s.mat R := by
  have hsame : filterUpdate L (s.vec x) (s.mat P) (s.vec z) (s.mat H) (s.mat R) (s.vec x) (s.mat P) = .ok (true, x', P') := by
    rw [← h]; unfold filterUpdate
    simp only [hxo, hPo.1, hPo.2]
    split_ifs with h1 h2 h3 <;> first | rfl | (exfalso; rw [filterUpdate] at h; simp_all)
  rw [C82_update_alias, hsame]
  refine ⟨_, rfl, ?_, ?_, ?_, ?_, ?_⟩
  · simp
  · simp
  · simp [setVec_ne s _ hz]
  · simp [setMat_ne (s.setVec x x') _ hH]
  · simp [setMat_ne (s.setVec x x') _ hR]

/-- distinct object identities exist, as C82's in-place form asks -/
example : (2 : Nat) ≠ 1 ∧ (3 : Nat) ≠ 1 ∧ (5 : Nat) ≠ 4 := by decide

end NavFuse.Props
