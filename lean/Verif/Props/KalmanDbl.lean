import Verif.Lemmas.RoundKalman
import Verif.Lemmas.SumSmall
import Verif.Props.Kalman

/-! # The Kalman filter in double precision

The calls run on doubles with rounding and overflow (`Dbl r`).  `inverse()` is a black box `L` on doubles; only the gains it leads to must be finite. -/

namespace NavFuse.Props
open Matrix Kalman Spec
variable [Machine] {r : ℝ → ℝ} {n : ℕ}

/-- a filter call together with the gain in use -/
inductive Gained (n : ℕ) : Type
  | predict (F Q : Matrix (Fin n) (Fin n) ℝ)
  | update (m : ℕ) (z : Fin m → ℝ) (H : Matrix (Fin m) (Fin n) ℝ) (R : Matrix (Fin m) (Fin m) ℝ) (K : Matrix (Fin n) (Fin m) ℝ)

/-- finite doubles with given values -/
def dM {k l : ℕ} (A : Matrix (Fin k) (Fin l) ℝ) : Matrix (Fin k) (Fin l) (Dbl r) := of fun i j => .fin (A i j)
/-- finite doubles with given values -/
def dV {k : ℕ} (v : Fin k → ℝ) : Fin k → Dbl r := fun i => .fin (v i)

/-- the call on doubles, writing the result over the current state -/
noncomputable def Gained.exec (L : LinSolver (Dbl r)) (s : DVec (Dbl r) × DMat (Dbl r)) : Gained n → Out (Bool × DVec (Dbl r) × DMat (Dbl r))
  | .predict F Q => filterPredict s.1 s.2 ⟨n, n, dM F⟩ ⟨n, n, dM Q⟩ s.1 s.2
  | .update m z H R _ => filterUpdate L s.1 s.2 ⟨m, dV z⟩ ⟨m, n, dM H⟩ ⟨m, m, dM R⟩ s.1 s.2

/-- a run of calls -/
noncomputable def runD (L : LinSolver (Dbl r)) : List (Gained n) → DVec (Dbl r) × DMat (Dbl r) → Out (DVec (Dbl r) × DMat (Dbl r))
  | [], s => .ok s
  | g :: gs, s => do
    let s' ← g.exec L s
    if s'.1 then runD L gs s'.2 else .error .throws

/-- the recorded gain is the one computed in doubles, `P Hᵀ (H P Hᵀ + R)⁻¹` -/
def Gained.GainIs (L : LinSolver (Dbl r)) (P : Matrix (Fin n) (Fin n) (Dbl r)) : Gained n → Prop
  | .predict _ _ => True
  | .update _ _ H R K => mmul (mmul P (mtr (dM H))) (L.inv (madd (mmul (mmul (dM H) P) (mtr (dM H))) (dM R))) = dM K

/-- at least one measurement -/
def Gained.Measures : Gained n → Prop
  | .predict _ _ => True
  | .update m _ _ _ _ => 0 < m

/-- the recorded gains are the ones computed along the run -/
def GainsAre (L : LinSolver (Dbl r)) : List (Gained n) → (Fin n → Dbl r) → Matrix (Fin n) (Fin n) (Dbl r) → Prop
  | [], _, _ => True
  | g :: gs, x, P =>
    g.GainIs L P ∧ ∀ x' P', g.exec L (⟨n, x⟩, ⟨n, n, P⟩) = .ok (true, ⟨n, x'⟩, ⟨n, n, P'⟩) → GainsAre L gs x' P'

/-- the same step in exact arithmetic with the recorded gain: estimate and the covariance of its error -/
noncomputable def Gained.exact : Gained n → (Fin n → ℝ) × Matrix (Fin n) (Fin n) ℝ → (Fin n → ℝ) × Matrix (Fin n) (Fin n) ℝ
  | .predict F Q, s => (F *ᵥ s.1, F * s.2 * Fᵀ + Q)
  | .update _ z H R K, s => (s.1 + K *ᵥ (z - H *ᵥ s.1), (1 - K * H) * s.2 * (1 - K * H)ᵀ + K * R * Kᵀ)

/-- absolute values, not below 10⁻⁵⁰ -/
noncomputable def mgM {k l : ℕ} (A : Matrix (Fin k) (Fin l) ℝ) : Matrix (Fin k) (Fin l) ℝ := of fun i j => max |A i j| 1e-50
/-- absolute values, not below 10⁻⁵⁰ -/
noncomputable def mgV {k : ℕ} (v : Fin k → ℝ) : Fin k → ℝ := fun i => max |v i| 1e-50

/-- the same step with all numbers replaced by their magnitudes and all differences by sums -/
noncomputable def Gained.mags : Gained n → (Fin n → ℝ) × Matrix (Fin n) (Fin n) ℝ → (Fin n → ℝ) × Matrix (Fin n) (Fin n) ℝ
  | .predict F Q, s => (fun i => max ((mgM F *ᵥ s.1) i) 1e-50, mgM F * s.2 * (mgM F)ᵀ + mgM Q)
  | .update _ z H R K, s =>
    (s.1 + mgM K *ᵥ (mgV z + mgM H *ᵥ s.1), (1 + mgM K * mgM H) * s.2 * (1 + mgM K * mgM H)ᵀ + mgM K * mgM R * (mgM K)ᵀ)

/-- roundings on the longest path through a call -/
def Gained.cost : Gained n → ℕ
  | .predict _ _ => 2 * n + 3
  | .update m _ _ _ _ => 2 * m + 2 * n + 7

/-- the magnitudes stay below 10¹⁰⁰ along the run, and every update has a measurement -/
def Modest : List (Gained n) → (Fin n → ℝ) × Matrix (Fin n) (Fin n) ℝ → Prop
  | [], _ => True
  | g :: gs, M =>
    g.Measures ∧ (∀ i, (g.mags M).1 i ≤ 1e100) ∧ (∀ i j, (g.mags M).2 i j ≤ 1e100) ∧ Modest gs (g.mags M)

omit [Machine] in
theorem dM_rl {k l : ℕ} (A : Matrix (Fin k) (Fin l) ℝ) : MRl (dM A : Matrix _ _ (Dbl r)) A 0 (mgM A) := fun _ _ => Rl.exact (le_max_left _ _)
omit [Machine] in
theorem dV_rl {k : ℕ} (v : Fin k → ℝ) : VRl (dV v : _ → Dbl r) v 0 (mgV v) := fun _ => Rl.exact (le_max_left _ _)
omit [Machine] in
theorem mgM_floor {k l : ℕ} (A : Matrix (Fin k) (Fin l) ℝ) (i : Fin k) (j : Fin l) : 1e-50 ≤ mgM A i j := le_max_right _ _
omit [Machine] in
theorem mgV_floor {k : ℕ} (v : Fin k → ℝ) (i : Fin k) : 1e-50 ≤ mgV v i := le_max_right _ _

/-- one call -/
theorem exec_rl (h : Rounds53 r) (L : LinSolver (Dbl r)) (g : Gained n) {x : Fin n → ℝ} {P : Matrix (Fin n) (Fin n) ℝ} {x' : Fin n → Dbl r}
    {P' : Matrix (Fin n) (Fin n) (Dbl r)} {Mx : Fin n → ℝ} {MP : Matrix (Fin n) (Fin n) ℝ} {k : ℕ} (hx : VRl x' x k Mx) (hP : MRl P' P k MP)
    (fx : ∀ i, 1e-50 ≤ Mx i) (fP : ∀ i j, 1e-50 ≤ MP i j) (hk : k + g.cost ≤ 10 ^ 15)
    (hg : g.GainIs L P') (hm : g.Measures)
    (cx : ∀ i, (g.mags (Mx, MP)).1 i ≤ 1e100) (cP : ∀ i j, (g.mags (Mx, MP)).2 i j ≤ 1e100) :
    ∃ (y : Fin n → Dbl r) (Y : Matrix (Fin n) (Fin n) (Dbl r)), g.exec L (⟨n, x'⟩, ⟨n, n, P'⟩) = .ok (true, ⟨n, y⟩, ⟨n, n, Y⟩)
      ∧ VRl y (g.exact (x, P)).1 (k + g.cost) (g.mags (Mx, MP)).1 ∧ MRl Y (g.exact (x, P)).2 (k + g.cost) (g.mags (Mx, MP)).2
      ∧ (∀ i, 1e-50 ≤ (g.mags (Mx, MP)).1 i) ∧ ∀ i j, 1e-50 ≤ (g.mags (Mx, MP)).2 i j := by
  have z50 : (0 : ℝ) ≤ 1e-50 := by norm_num
  have pP : ∀ i j, 0 ≤ MP i j := fun i j => z50.trans (fP i j)
  have px : ∀ i, 0 ≤ Mx i := fun i => z50.trans (fx i)
  have pm : ∀ {k l : ℕ} (A : Matrix (Fin k) (Fin l) ℝ) i j, 0 ≤ mgM A i j := fun A i j => z50.trans (mgM_floor A i j)
  have pmul : ∀ {k l c : ℕ} {A : Matrix (Fin k) (Fin l) ℝ} {B : Matrix (Fin l) (Fin c) ℝ}, (∀ i j, 0 ≤ A i j) → (∀ i j, 0 ≤ B i j) →
      ∀ i j, 0 ≤ (A * B) i j := fun hA hB i j => by
    rw [Matrix.mul_apply]; exact Finset.sum_nonneg fun l _ => mul_nonneg (hA i l) (hB l j)
  cases g with
  | predict F Q =>
    have cx' : ∀ i, (mgM F *ᵥ Mx) i ≤ 1e100 := fun i => (le_max_left _ _).trans (cx i)
    obtain ⟨a, b⟩ := predict_rl h (dM_rl F) (dM_rl Q) hx hP (mgM_floor F) (mgM_floor Q) fx fP cx' cP hk
    refine ⟨_, _, predict_fit _ _ _ _ _ _, fun i => ?_, b, fun i => le_max_right _ _, fun i j => ?_⟩
    · obtain ⟨v, e, hv⟩ := (a i).near
      have hl : (mgM F *ᵥ Mx) i ≤ max ((mgM F *ᵥ Mx) i) 1e-50 := le_max_left _ _
      exact ⟨⟨v, e, hv.trans (mul_le_mul_of_nonneg_left hl (by linarith [one_le_gr (k + (2 * n + 3))]))⟩, (a i).mag.trans hl⟩
    · show _ ≤ (mgM F * MP * (mgM F)ᵀ + mgM Q) i j
      rw [Matrix.add_apply]
      have pT : ∀ i j, 0 ≤ (mgM F)ᵀ i j := fun i j => pm F j i
      have := pmul (pmul (pm F) pP) pT i j
      linarith [mgM_floor Q i j]
  | update m z H R K =>
    obtain ⟨a, b⟩ := update_rl h hm (dM_rl H) (dM_rl R) (dV_rl z) (dM_rl K) hx hP (mgM_floor H) (mgM_floor R) (mgV_floor z) (mgM_floor K) fx fP cx cP hk
    refine ⟨_, _, ?_, a, b, fun i => ?_, fun i j => ?_⟩
    · show filterUpdate L ⟨n, x'⟩ ⟨n, n, P'⟩ ⟨m, dV z⟩ ⟨m, n, dM H⟩ ⟨m, m, dM R⟩ ⟨n, x'⟩ ⟨n, n, P'⟩ = _
      have hg' : gainC L P' (dM H) (dM R) = dM K := hg
      rw [update_fit, hg']
    · show _ ≤ (Mx + mgM K *ᵥ (mgV z + mgM H *ᵥ Mx)) i
      rw [Pi.add_apply]
      have h1 : ∀ i, 0 ≤ (mgV z + mgM H *ᵥ Mx) i := fun i => by
        rw [Pi.add_apply]; exact add_nonneg (z50.trans (mgV_floor z i)) (mulVec_nonneg' (pm H) px i)
      have h2 := mulVec_nonneg' (pm K) h1 i
      linarith [fx i]
    · show _ ≤ ((1 + mgM K * mgM H) * MP * (1 + mgM K * mgM H)ᵀ + mgM K * mgM R * (mgM K)ᵀ : Matrix (Fin n) (Fin n) ℝ) i j
      rw [Matrix.add_apply]
      have pK := pmul (pm K) (pm H)
      set A : Matrix (Fin n) (Fin n) ℝ := 1 + mgM K * mgM H with hA
      have pA : ∀ i j, 0 ≤ A i j := fun i j => by
        rw [hA, Matrix.add_apply, Matrix.one_apply]; split_ifs <;> linarith [pK i j]
      have A1 : ∀ i, 1 ≤ A i i := fun i => by rw [hA, Matrix.add_apply, Matrix.one_apply_eq]; linarith [pK i i]
      have pAT : ∀ i j, 0 ≤ Aᵀ i j := fun i j => pA j i
      have h1 := term_le pA pP i i j
      have h2 := term_le (pmul pA pP) pAT i j j
      have pT : ∀ i j, 0 ≤ (mgM K)ᵀ i j := fun i j => pm K j i
      have h3 := pmul (pmul (pm K) (pm R)) pT i j
      have h4 : Aᵀ j j = A j j := rfl
      rw [h4] at h2
      have h5 := A1 i
      have h6 := A1 j
      have h7 := pmul pA pP i j
      nlinarith [fP i j, pP i j]

/-- C130. Let the gains computed along a run be finite and the magnitudes stay modest. Then in double precision, in every rounding mode, all calls
succeed and every number is finite; and the estimate and covariance differ from those of the exact linear observer with the computed gains by at most
one part in 2⁵¹ per rounding on the longest path, relative to the magnitudes involved. -/
theorem C130_run (h : Rounds53 r) (L : LinSolver (Dbl r)) (gs : List (Gained n)) (x : Fin n → ℝ) (P : Matrix (Fin n) (Fin n) ℝ)
    (hg : GainsAre L gs (dV x) (dM P)) (hm : Modest gs (mgV x, mgM P)) (hk : (gs.map Gained.cost).sum ≤ 10 ^ 15) :
    ∃ (y : Fin n → ℝ) (Y : Matrix (Fin n) (Fin n) ℝ),
      runD L gs (⟨n, dV x⟩, ⟨n, n, dM P⟩) = .ok (⟨n, dV y⟩, ⟨n, n, dM Y⟩)
      ∧ (let E := gs.foldl (fun s g => g.exact s) (x, P)
         let M := gs.foldl (fun s g => g.mags s) (mgV x, mgM P)
         (∀ i, |y i - E.1 i| ≤ (gs.map Gained.cost).sum / 2 ^ 51 * M.1 i)
          ∧ ∀ i j, |Y i j - E.2 i j| ≤ (gs.map Gained.cost).sum / 2 ^ 51 * M.2 i j) := by
  suffices H : ∀ (gs : List (Gained n)) (x : Fin n → ℝ) (P : Matrix (Fin n) (Fin n) ℝ) (x' : Fin n → Dbl r) (P' : Matrix (Fin n) (Fin n) (Dbl r))
      (Mx : Fin n → ℝ) (MP : Matrix (Fin n) (Fin n) ℝ) (k : ℕ), VRl x' x k Mx → MRl P' P k MP → (∀ i, 1e-50 ≤ Mx i) → (∀ i j, 1e-50 ≤ MP i j) →
      GainsAre L gs x' P' → Modest gs (Mx, MP) → k + (gs.map Gained.cost).sum ≤ 10 ^ 15 →
      ∃ y Y, runD L gs (⟨n, x'⟩, ⟨n, n, P'⟩) = .ok (⟨n, y⟩, ⟨n, n, Y⟩)
        ∧ VRl y (gs.foldl (fun s g => g.exact s) (x, P)).1 (k + (gs.map Gained.cost).sum) (gs.foldl (fun s g => g.mags s) (Mx, MP)).1
        ∧ MRl Y (gs.foldl (fun s g => g.exact s) (x, P)).2 (k + (gs.map Gained.cost).sum) (gs.foldl (fun s g => g.mags s) (Mx, MP)).2 by
    obtain ⟨y, Y, e, a, b⟩ := H gs x P (dV x) (dM P) (mgV x) (mgM P) 0 (dV_rl x) (dM_rl P) (mgV_floor x) (mgM_floor P) hg hm (by simpa using hk)
    rw [zero_add] at a b
    choose v ev hv using fun i => (a i).near
    choose V eV hV using fun i j => (b i j).near
    have hgr := gr_le hk
    refine ⟨v, of V, ?_, fun i => (hv i).trans ?_, fun i j => (hV i j).trans ?_⟩
    · rw [e]
      have e1 : y = dV v := funext ev
      have e2 : Y = dM (of V) := by ext i j; exact eV i j
      rw [e1, e2]
    · exact mul_le_mul_of_nonneg_right (by linarith) (a i).M_nonneg
    · exact mul_le_mul_of_nonneg_right (by linarith) (b i j).M_nonneg
  intro gs
  induction gs with
  | nil => intro x P x' P' Mx MP k hx hP _ _ _ _ _; exact ⟨x', P', rfl, by simpa using hx, by simpa using hP⟩
  | cons g gs ih =>
    intro x P x' P' Mx MP k hx hP fx fP hg hm hk
    rw [List.map_cons, List.sum_cons, ← add_assoc] at hk ⊢
    obtain ⟨hm0, cx, cP, hms⟩ := hm
    obtain ⟨y, Y, e, a, b, fx', fP'⟩ := exec_rl h L g hx hP fx fP (by omega) hg.1 hm0 cx cP
    obtain ⟨w, W, e', a', b'⟩ := ih _ _ y Y _ _ (k + g.cost) a b fx' fP' (hg.2 y Y e) hms hk
    refine ⟨w, W, ?_, a', b'⟩
    rw [runD, e]
    exact e'

/-- sound noise matrices -/
def Gained.Sound : Gained n → Prop
  | .predict _ Q => IsCov Q
  | .update _ _ _ R _ => IsCov R

omit [Machine] in
theorem exact_cov (gs : List (Gained n)) (hs : ∀ g ∈ gs, g.Sound) (x : Fin n → ℝ) (P : Matrix (Fin n) (Fin n) ℝ) (hP : IsCov P) :
    IsCov (gs.foldl (fun s g => g.exact s) (x, P)).2 := by
  induction gs generalizing x P with
  | nil => exact hP
  | cons g gs ih =>
    have hg := hs g (by simp)
    refine ih (fun g h => hs g (by simp [h])) _ _ ?_
    cases g with
    | predict F Q =>
      obtain ⟨x1, P1, h1, -, e, hc⟩ := C74_predict_covariance x P F Q x P hP hg
      rw [e] at hc; exact hc
    | update m z H R K => exact isCov_iff.2 (KA.joseph_psd (isCov_iff.1 hP) H (isCov_iff.1 hg) K)

/-- C129. In double precision a run from a covariance, with sound noise matrices, finite gains and modest magnitudes, ends in a covariance that is
symmetric and nonnegative up to rounding: the two entries of each pair differ by at most the sum of their rounding bounds, and no direction has a
variance below minus the rounding bound. Missing: exact symmetry and nonnegativity, see the refutations below. -/
theorem C129_covariance_partial (h : Rounds53 r) (L : LinSolver (Dbl r)) (gs : List (Gained n)) (hs : ∀ g ∈ gs, g.Sound) (x : Fin n → ℝ)
    (P : Matrix (Fin n) (Fin n) ℝ) (hP : IsCov P) (hg : GainsAre L gs (dV x) (dM P)) (hm : Modest gs (mgV x, mgM P))
    (hk : (gs.map Gained.cost).sum ≤ 10 ^ 15) :
    ∃ (y : Fin n → ℝ) (Y : Matrix (Fin n) (Fin n) ℝ),
      runD L gs (⟨n, dV x⟩, ⟨n, n, dM P⟩) = .ok (⟨n, dV y⟩, ⟨n, n, dM Y⟩)
      ∧ (let M := (gs.foldl (fun s g => g.mags s) (mgV x, mgM P)).2
         (∀ i j, |Y i j - Y j i| ≤ (gs.map Gained.cost).sum / 2 ^ 51 * (M i j + M j i))
          ∧ ∀ v : Fin n → ℝ, -((gs.map Gained.cost).sum / 2 ^ 51 * ∑ i, ∑ j, |v i| * M i j * |v j|) ≤ v ⬝ᵥ (Y *ᵥ v)) := by
  obtain ⟨y, Y, e, -, b⟩ := C130_run h L gs x P hg hm hk
  obtain ⟨sym, psd⟩ := exact_cov gs hs x P hP
  refine ⟨y, Y, e, fun i j => ?_, fun v => ?_⟩
  · have h1 := b i j
    have h2 := b j i
    have hs : (gs.foldl (fun s g => g.exact s) (x, P)).2 j i = (gs.foldl (fun s g => g.exact s) (x, P)).2 i j := congrFun (congrFun sym i) j
    rw [hs, abs_sub_comm] at h2
    have h3 := abs_add_le (Y i j - (gs.foldl (fun s g => g.exact s) (x, P)).2 i j) ((gs.foldl (fun s g => g.exact s) (x, P)).2 i j - Y j i)
    rw [sub_add_sub_cancel] at h3
    rw [mul_add]
    exact h3.trans (add_le_add h1 h2)
  · have hE := psd v
    set E := (gs.foldl (fun s g => g.exact s) (x, P)).2
    set M := (gs.foldl (fun s g => g.mags s) (mgV x, mgM P)).2
    set c : ℝ := (gs.map Gained.cost).sum / 2 ^ 51
    have e1 : v ⬝ᵥ (Y *ᵥ v) = v ⬝ᵥ (E *ᵥ v) + ∑ i, ∑ j, v i * ((Y i j - E i j) * v j) := by
      simp only [dotProduct, Matrix.mulVec, Finset.mul_sum, ← Finset.sum_add_distrib]
      refine Finset.sum_congr rfl fun i _ => Finset.sum_congr rfl fun j _ => ?_
      ring
    have e2 : |∑ i, ∑ j, v i * ((Y i j - E i j) * v j)| ≤ c * ∑ i, ∑ j, |v i| * M i j * |v j| := by
      refine (Finset.abs_sum_le_sum_abs _ _).trans ?_
      rw [Finset.mul_sum]
      refine Finset.sum_le_sum fun i _ => (Finset.abs_sum_le_sum_abs _ _).trans ?_
      rw [Finset.mul_sum]
      refine Finset.sum_le_sum fun j _ => ?_
      rw [abs_mul, abs_mul]
      have := mul_le_mul_of_nonneg_left (mul_le_mul_of_nonneg_right (b i j) (abs_nonneg (v j))) (abs_nonneg (v i))
      linarith
    have := (abs_le.1 e2).1
    linarith

/-! ## Exact symmetry and nonnegativity are lost -/

omit [Machine] in
/-- rounding to nearest, computed -/
theorem even_eq {x : ℝ} (m e : ℤ) (he : -1074 < e) (h1 : (2 : ℝ) ^ (e + 52) ≤ x) (h2 : x < (2 : ℝ) ^ (e + 53)) (h3 : |x - m * (2 : ℝ) ^ e| < (2 : ℝ) ^ e / 2) :
    ieeeEven x = m * (2 : ℝ) ^ e := by
  have hx : 0 < x := lt_of_lt_of_le (by positivity) h1
  have hlog : Int.log 2 x = e + 52 := by
    apply le_antisymm
    · have := (Int.lt_zpow_iff_log_lt (b := 2) (by norm_num) hx (x := e + 53)).1 (by exact_mod_cast h2)
      omega
    · exact (Int.zpow_le_iff_le_log (b := 2) (by norm_num) hx).1 (by exact_mod_cast h1)
  have hq : quantum x = e := by
    rw [quantum, if_neg hx.ne', abs_of_pos hx, hlog]
    have : e + 52 - 52 = e := by ring
    rw [this]; exact max_eq_left he.le
  have hp : (0 : ℝ) < (2 : ℝ) ^ e := by positivity
  have hr : roundEven (x / (2 : ℝ) ^ e) = m := by
    have a1 := roundEven_half (x / (2 : ℝ) ^ e)
    have a2 : |x / (2 : ℝ) ^ e - m| < 1 / 2 := by
      rw [show x / (2 : ℝ) ^ e - m = (x - m * (2 : ℝ) ^ e) / (2 : ℝ) ^ e by field_simp, abs_div, abs_of_pos hp, div_lt_iff₀ hp]
      linarith
    have a3 : |((roundEven (x / (2 : ℝ) ^ e) - m : ℤ) : ℝ)| < 1 := by
      push_cast
      have := abs_add_le ((roundEven (x / (2 : ℝ) ^ e) : ℝ) - x / (2 : ℝ) ^ e) (x / (2 : ℝ) ^ e - m)
      rw [sub_add_sub_cancel] at this
      linarith
    have a4 : |roundEven (x / (2 : ℝ) ^ e) - m| < 1 := by exact_mod_cast a3
    have := Int.abs_lt_one_iff.1 a4
    omega
  rw [ieeeEven, ieee, hq, hr]

section witness
abbrev E := Dbl ieeeEven

omit [Machine] in
theorem mulE {a b c : ℝ} (h : ieeeEven (a * b) = c) (hc : |c| ≤ 1e200) : (.fin a : E) * .fin b = .fin c := by
  show Dbl.rd ieeeEven (.fin (a * b)) = _
  rw [Dbl.rd_fin (by rw [h]; exact hc.trans_lt Dbl.big), h]
omit [Machine] in
theorem addE {a b c : ℝ} (h : ieeeEven (a + b) = c) (hc : |c| ≤ 1e200) : (.fin a : E) + .fin b = .fin c := by
  show Dbl.rd ieeeEven (.fin (a + b)) = _
  rw [Dbl.rd_fin (by rw [h]; exact hc.trans_lt Dbl.big), h]
theorem litE : (Flt.lit 0 : E) = .fin 0 := by
  show Dbl.rd ieeeEven (.fin ((0 : ℚ) : ℝ)) = _
  rw [Rat.cast_zero, Dbl.rd_fin] <;> rw [ieeeEven_rounds.zero]
  rw [abs_zero]; positivity
omit [Machine] in
theorem keepE (m e : ℤ) (x : ℝ) (hx : x = m * (2 : ℝ) ^ e) (hm : |m| ≤ 2 ^ 53) (he : -1074 ≤ e) : ieeeEven x = x := by
  rw [hx]; exact ieeeEven_rounds.keeps m e hm he

/-- `ΦPΦᵀ + Q` for two states, spelled out -/
theorem predict2 (F P Q : Matrix (Fin 2) (Fin 2) E) (i j : Fin 2) : madd (mmul (mmul F P) (mtr F)) Q i j
    = (F i 0 * P 0 0 + F i 1 * P 1 0) * F j 0 + (F i 0 * P 0 1 + F i 1 * P 1 1) * F j 1 + Q i j := by
  show fsum (fun l => fsum (fun l' => F i l' * P l' l) * F j l) + Q i j = _
  simp only [fsum_two Dbl.add_comm]

/-- C129 (refutation of nonnegativity). A perfectly known second state, a transition matrix with entries 1 and 1 + 2⁻⁵²: in double precision (rounding to
nearest) the predicted covariance has a negative variance. -/
theorem C129_nonnegative_fails (x xo : Fin 2 → E) (Po : Matrix (Fin 2) (Fin 2) E) :
    ∃ (F P Y : Matrix (Fin 2) (Fin 2) ℝ) (v : Fin 2 → ℝ) (y : Fin 2 → E), IsCov P
      ∧ filterPredict ⟨2, x⟩ ⟨2, 2, dM P⟩ ⟨2, 2, dM F⟩ ⟨2, 2, dM 0⟩ ⟨2, xo⟩ ⟨2, 2, Po⟩ = .ok (true, ⟨2, y⟩, ⟨2, 2, dM Y⟩)
      ∧ v ⬝ᵥ (Y *ᵥ v) < 0 := by
  set u : ℝ := 1 / 2 ^ 52 with hu
  have hu' : u = 1 / 4503599627370496 := by rw [hu]; norm_num
  refine ⟨!![1, 0; 1 + u, 1], !![1, 0; 0, 0], !![1, 1 + u; 1 + u, 1 + 2 * u], ![1 + u, -1], mvec (dM !![1, 0; 1 + u, 1]) x, ?_, ?_, ?_⟩
  · refine ⟨by ext i j; fin_cases i <;> fin_cases j <;> rfl, fun v => ?_⟩
    simp [Matrix.mulVec, dotProduct, Fin.sum_univ_two]
    exact mul_self_nonneg _
  · rw [predict_fit]
    have e1 : madd (mmul (mmul (dM !![1, 0; 1 + u, 1]) (dM !![1, 0; 0, 0])) (mtr (dM !![1, 0; 1 + u, 1]))) (dM 0)
        = (dM !![1, 1 + u; 1 + u, 1 + 2 * u] : Matrix (Fin 2) (Fin 2) E) := by
      have k0 : ieeeEven 0 = 0 := ieeeEven_rounds.zero
      have k1 : ieeeEven 1 = 1 := ieeeEven_rounds.one
      have ku : ieeeEven (1 + u) = 1 + u := keepE 4503599627370497 (-52) _ (by rw [hu']; norm_num) (by norm_num) (by norm_num)
      have k2 : ieeeEven (1 + 2 * u) = 1 + 2 * u := keepE 4503599627370498 (-52) _ (by rw [hu']; norm_num) (by norm_num) (by norm_num)
      have ks : ieeeEven ((1 + u) * (1 + u)) = 1 + 2 * u := by
        rw [even_eq 4503599627370498 (-52) (by norm_num), hu']
        · norm_num
        · rw [hu']; norm_num
        · rw [hu']; norm_num
        · rw [hu', abs_of_pos] <;> norm_num
      have a0 : ∀ a : ℝ, ieeeEven a = a → |a| ≤ 1e200 → (.fin 0 : E) + .fin a = .fin a := fun a h h' => addE (by rw [zero_add, h]) h'
      have b0 : ∀ a : ℝ, ieeeEven a = a → |a| ≤ 1e200 → (.fin a : E) + .fin 0 = .fin a := fun a h h' => addE (by rw [add_zero, h]) h'
      have c0 : ∀ a : ℝ, (.fin 0 : E) * .fin a = .fin 0 := fun a => mulE (by rw [zero_mul, k0]) (by norm_num)
      have d0 : ∀ a : ℝ, (.fin a : E) * .fin 0 = .fin 0 := fun a => mulE (by rw [mul_zero, k0]) (by norm_num)
      have c1 : ∀ a : ℝ, ieeeEven a = a → |a| ≤ 1e200 → (.fin 1 : E) * .fin a = .fin a := fun a h h' => mulE (by rw [one_mul, h]) h'
      have d1 : ∀ a : ℝ, ieeeEven a = a → |a| ≤ 1e200 → (.fin a : E) * .fin 1 = .fin a := fun a h h' => mulE (by rw [mul_one, h]) h'
      have n0 : |(0 : ℝ)| ≤ 1e200 := by norm_num
      have n1 : |(1 : ℝ)| ≤ 1e200 := by norm_num
      have nu : |1 + u| ≤ 1e200 := by rw [hu', abs_of_pos] <;> norm_num
      have n2 : |1 + 2 * u| ≤ 1e200 := by rw [hu', abs_of_pos] <;> norm_num
      have m2 : (.fin (1 + u) : E) * .fin (1 + u) = .fin (1 + 2 * u) := mulE ks n2
      ext i j
      rw [predict2]
      fin_cases i <;> fin_cases j <;>
        simp [dM, litE, c0, d0, a0 0 k0 n0, c1 1 k1 n1, a0 1 k1 n1, b0 1 k1 n1, c1 _ ku nu, d1 _ ku nu, a0 _ ku nu, b0 _ ku nu,
          m2, a0 _ k2 n2, b0 _ k2 n2]
    rw [e1]
  · simp [Matrix.mulVec, dotProduct, Fin.sum_univ_two]
    rw [hu']; norm_num

/-- C129 (refutation of symmetry). A small correlation and a well-conditioned transition matrix: in double precision (rounding to nearest) the two
off-diagonal entries of the predicted covariance differ. -/
theorem C129_symmetry_fails (x xo : Fin 2 → E) (Po : Matrix (Fin 2) (Fin 2) E) :
    ∃ (F P : Matrix (Fin 2) (Fin 2) ℝ) (y : Fin 2 → E) (Y : Matrix (Fin 2) (Fin 2) E) (a b : ℝ), IsCov P
      ∧ filterPredict ⟨2, x⟩ ⟨2, 2, dM P⟩ ⟨2, 2, dM F⟩ ⟨2, 2, dM 0⟩ ⟨2, xo⟩ ⟨2, 2, Po⟩ = .ok (true, ⟨2, y⟩, ⟨2, 2, Y⟩)
      ∧ Y 0 1 = .fin a ∧ Y 1 0 = .fin b ∧ a ≠ b := by
  obtain ⟨u, hu⟩ : ∃ u : ℝ, u = 1 / 4503599627370496 := ⟨_, rfl⟩
  refine ⟨!![1, 3; 3, 2], !![1, 3 * u / 4; 3 * u / 4, 3], _, _, 21, 21 + 16 * u, ?_, predict_fit _ _ _ _ _ _, ?_, ?_, ?_⟩
  · refine ⟨by ext i j; fin_cases i <;> fin_cases j <;> rfl, fun v => ?_⟩
    simp [Matrix.mulVec, dotProduct, Fin.sum_univ_two]
    rw [hu]
    nlinarith [sq_nonneg (v 0 + v 1), sq_nonneg (v 0 - v 1), sq_nonneg (v 0), sq_nonneg (v 1)]
  · rw [predict2]
    simp only [dM, litE, of_apply, cons_val', cons_val_zero, cons_val_one, cons_val_fin_one, Matrix.zero_apply]
    have a1 : (.fin 1 : E) * .fin 1 = .fin 1 := mulE (by rw [mul_one]; exact keepE 1 0 _ (by norm_num) (by norm_num) (by norm_num)) (by norm_num)
    have a3 : (.fin 3 : E) * .fin (3 * u / 4) = .fin (9 * u / 4) :=
      mulE (by rw [show 3 * (3 * u / 4) = 9 * u / 4 by ring]; exact keepE 9 (-54) _ (by rw [hu]; norm_num) (by norm_num) (by norm_num))
        (by rw [hu, abs_of_pos] <;> norm_num)
    have a4 : (.fin 1 : E) + .fin (9 * u / 4) = .fin (1 + 2 * u) := by
      refine addE ?_ (by rw [hu, abs_of_pos] <;> norm_num)
      rw [even_eq 4503599627370498 (-52) (by norm_num), hu]
      · norm_num
      · rw [hu]; norm_num
      · rw [hu]; norm_num
      · rw [hu, abs_lt]; norm_num
    have a5 : (.fin (1 + 2 * u) : E) * .fin 3 = .fin (3 + 6 * u) := by
      refine mulE ?_ (by rw [hu, abs_of_pos] <;> norm_num)
      rw [show (1 + 2 * u) * 3 = 3 + 6 * u by ring]
      exact keepE 6755399441055747 (-51) _ (by rw [hu]; norm_num) (by norm_num) (by norm_num)
    have b1 : (.fin 1 : E) * .fin (3 * u / 4) = .fin (3 * u / 4) :=
      mulE (by rw [one_mul]; exact keepE 3 (-54) _ (by rw [hu]; norm_num) (by norm_num) (by norm_num)) (by rw [hu, abs_of_pos] <;> norm_num)
    have b3 : (.fin 3 : E) * .fin 3 = .fin 9 := mulE (by rw [keepE 9 0 _ (by norm_num) (by norm_num) (by norm_num)]; norm_num) (by norm_num)
    have b4 : (.fin (3 * u / 4) : E) + .fin 9 = .fin 9 := by
      refine addE ?_ (by norm_num)
      rw [even_eq 5066549580791808 (-49) (by norm_num)]
      · norm_num
      · rw [hu]; norm_num
      · rw [hu]; norm_num
      · rw [hu, abs_lt]; norm_num
    have b5 : (.fin 9 : E) * .fin 2 = .fin 18 := mulE (by rw [keepE 18 0 _ (by norm_num) (by norm_num) (by norm_num)]; norm_num) (by norm_num)
    have c1 : (.fin (3 + 6 * u) : E) + .fin 18 = .fin 21 := by
      refine addE ?_ (by norm_num)
      rw [even_eq 5910974510923776 (-48) (by norm_num)]
      · norm_num
      · rw [hu]; norm_num
      · rw [hu]; norm_num
      · rw [hu, abs_lt]; norm_num
    have c2 : (.fin 21 : E) + .fin 0 = .fin 21 := addE (by rw [add_zero]; exact keepE 21 0 _ (by norm_num) (by norm_num) (by norm_num)) (by norm_num)
    rw [a1, a3, a4, a5, b1, b3, b4, b5, c1, c2]
  · rw [predict2]
    simp only [dM, litE, of_apply, cons_val', cons_val_zero, cons_val_one, cons_val_fin_one, Matrix.zero_apply]
    have a1 : (.fin 3 : E) * .fin 1 = .fin 3 := mulE (by rw [mul_one]; exact keepE 3 0 _ (by norm_num) (by norm_num) (by norm_num)) (by norm_num)
    have a3 : (.fin 2 : E) * .fin (3 * u / 4) = .fin (3 * u / 2) :=
      mulE (by rw [show 2 * (3 * u / 4) = 3 * u / 2 by ring]; exact keepE 3 (-53) _ (by rw [hu]; norm_num) (by norm_num) (by norm_num))
        (by rw [hu, abs_of_pos] <;> norm_num)
    have a4 : (.fin 3 : E) + .fin (3 * u / 2) = .fin (3 + 2 * u) := by
      refine addE ?_ (by rw [hu, abs_of_pos] <;> norm_num)
      rw [even_eq 6755399441055745 (-51) (by norm_num), hu]
      · norm_num
      · rw [hu]; norm_num
      · rw [hu]; norm_num
      · rw [hu, abs_lt]; norm_num
    have k32 : ieeeEven (3 + 2 * u) = 3 + 2 * u := keepE 6755399441055745 (-51) _ (by rw [hu]; norm_num) (by norm_num) (by norm_num)
    have n32 : |3 + 2 * u| ≤ 1e200 := by rw [hu, abs_of_pos] <;> norm_num
    have a5 : (.fin (3 + 2 * u) : E) * .fin 1 = .fin (3 + 2 * u) := mulE (by rw [mul_one, k32]) n32
    have b1 : (.fin 3 : E) * .fin (3 * u / 4) = .fin (9 * u / 4) :=
      mulE (by rw [show 3 * (3 * u / 4) = 9 * u / 4 by ring]; exact keepE 9 (-54) _ (by rw [hu]; norm_num) (by norm_num) (by norm_num))
        (by rw [hu, abs_of_pos] <;> norm_num)
    have b3 : (.fin 2 : E) * .fin 3 = .fin 6 := mulE (by rw [keepE 6 0 _ (by norm_num) (by norm_num) (by norm_num)]; norm_num) (by norm_num)
    have b4 : (.fin (9 * u / 4) : E) + .fin 6 = .fin (6 + 4 * u) := by
      refine addE ?_ (by rw [hu, abs_of_pos] <;> norm_num)
      rw [even_eq 6755399441055745 (-50) (by norm_num), hu]
      · norm_num
      · rw [hu]; norm_num
      · rw [hu]; norm_num
      · rw [hu, abs_lt]; norm_num
    have b5 : (.fin (6 + 4 * u) : E) * .fin 3 = .fin (18 + 16 * u) := by
      refine mulE ?_ (by rw [hu, abs_of_pos] <;> norm_num)
      rw [even_eq 5066549580791809 (-48) (by norm_num), hu]
      · norm_num
      · rw [hu]; norm_num
      · rw [hu]; norm_num
      · rw [hu, abs_lt]; norm_num
    have c1 : (.fin (3 + 2 * u) : E) + .fin (18 + 16 * u) = .fin (21 + 16 * u) := by
      refine addE ?_ (by rw [hu, abs_of_pos] <;> norm_num)
      rw [even_eq 5910974510923777 (-48) (by norm_num), hu]
      · norm_num
      · rw [hu]; norm_num
      · rw [hu]; norm_num
      · rw [hu, abs_lt]; norm_num
    have c2 : (.fin (21 + 16 * u) : E) + .fin 0 = .fin (21 + 16 * u) :=
      addE (by rw [add_zero]; exact keepE 5910974510923777 (-48) _ (by rw [hu]; norm_num) (by norm_num) (by norm_num)) (by rw [hu, abs_of_pos] <;> norm_num)
    rw [a1, a3, a4, a5, b1, b3, b4, b5, c1, c2]
  · rw [hu]; norm_num

/-- one state: a prediction and a measurement of it -/
noncomputable def oneState : List (Gained 1) := [.predict !![1] !![1], .update 1 ![3] !![1] !![2] !![1 / 2]]

/-- non-vacuity of C129 and C130: `oneState` from the estimate 0 with variance 1, with any `inverse()` that inverts the number 4 correctly -/
example (L : LinSolver E) (hL : L.inv (dM !![4] : Matrix (Fin 1) (Fin 1) E) = dM !![1 / 4]) :
    Rounds53 ieeeEven ∧ GainsAre L oneState (dV ![0]) (dM !![1]) ∧ Modest oneState (mgV ![0], mgM !![1])
    ∧ (oneState.map Gained.cost).sum ≤ 10 ^ 15 ∧ (∀ g ∈ oneState, g.Sound) ∧ IsCov !![(1 : ℝ)] := by
  have cov : ∀ a : ℝ, 0 ≤ a → IsCov !![a] := fun a ha => by
    refine ⟨by ext i j; fin_cases i; fin_cases j; rfl, fun v => ?_⟩
    simp [Matrix.mulVec, dotProduct]
    nlinarith [mul_self_nonneg (v 0), mul_nonneg ha (mul_self_nonneg (v 0))]
  refine ⟨ieeeEven_rounds, ?_, ?_, by norm_num [oneState, Gained.cost], ?_, cov 1 (by norm_num)⟩
  · have kk : ∀ m : ℤ, |m| ≤ 2 ^ 53 → ieeeEven m = m := fun m hm => ieeeEven_rounds.int m hm
    have k0 : ieeeEven 0 = 0 := by simpa using kk 0 (by norm_num)
    have k1 : ieeeEven 1 = 1 := by simpa using kk 1 (by norm_num)
    have k2 : ieeeEven 2 = 2 := by simpa using kk 2 (by norm_num)
    have k4 : ieeeEven 4 = 4 := by simpa using kk 4 (by norm_num)
    have kq : ieeeEven (1 / 4) = 1 / 4 := keepE 1 (-2) _ (by norm_num) (by norm_num) (by norm_num)
    have kh : ieeeEven (1 / 2) = 1 / 2 := keepE 1 (-1) _ (by norm_num) (by norm_num) (by norm_num)
    have m11 : (.fin 1 : E) * .fin 1 = .fin 1 := mulE (by rw [mul_one, k1]) (by norm_num)
    have a01 : (.fin 0 : E) + .fin 1 = .fin 1 := addE (by rw [zero_add, k1]) (by norm_num)
    have a11 : (.fin 1 : E) + .fin 1 = .fin 2 := addE (by rw [one_add_one_eq_two, k2]) (by norm_num)
    have m21 : (.fin 2 : E) * .fin 1 = .fin 2 := mulE (by rw [mul_one, k2]) (by norm_num)
    have m12 : (.fin 1 : E) * .fin 2 = .fin 2 := mulE (by rw [one_mul, k2]) (by norm_num)
    have a02 : (.fin 0 : E) + .fin 2 = .fin 2 := addE (by rw [zero_add, k2]) (by norm_num)
    have a22 : (.fin 2 : E) + .fin 2 = .fin 4 := addE (by rw [two_add_two_eq_four, k4]) (by norm_num)
    have m2q : (.fin 2 : E) * .fin (1 / 4) = .fin (1 / 2) := mulE (by rw [show (2 : ℝ) * (1 / 4) = 1 / 2 by norm_num, kh]) (by norm_num)
    have a0h : (.fin 0 : E) + .fin (1 / 2) = .fin (1 / 2) := addE (by rw [zero_add, kh]) (by norm_num)
    have mm : ∀ A B : Matrix (Fin 1) (Fin 1) E, mmul A B = of fun i j => A i 0 * B 0 j := fun A B => by
      ext i j; exact fsum_one fun l => A i l * B l j
    refine ⟨trivial, fun x' P' h => ⟨?_, fun _ _ _ => trivial⟩⟩
    have h' : Except.ok (ε := Stop) (true, (⟨1, mvec (dM !![1]) (dV ![0])⟩ : DVec E), (⟨1, 1, madd (mmul (mmul (dM !![1]) (dM !![1])) (mtr (dM !![1]))) (dM !![1])⟩ : DMat E))
        = .ok (true, ⟨1, x'⟩, ⟨1, 1, P'⟩) := by rw [← predict_fit (xo := dV ![0]) (Po := dM !![1])]; exact h
    have hP : P' = dM !![2] := by
      injection h' with h'
      simp only [Prod.mk.injEq, DMat.mk.injEq, heq_eq_eq, true_and] at h'
      rw [← h'.2]
      ext i j
      fin_cases i; fin_cases j
      simp [mm, madd, mtr, dM, litE, m11, a01, a11]
    rw [hP]
    have hS : madd (mmul (mmul (dM !![1]) (dM !![2])) (mtr (dM !![1]))) (dM !![2]) = (dM !![4] : Matrix (Fin 1) (Fin 1) E) := by
      ext i j
      fin_cases i; fin_cases j
      simp [mm, madd, mtr, dM, litE, m12, m21, a02, a22]
    show mmul (mmul (dM !![2]) (mtr (dM !![1]))) (L.inv (madd (mmul (mmul (dM !![1]) (dM !![2])) (mtr (dM !![1]))) (dM !![2]))) = dM !![1 / 2]
    rw [hS, hL]
    ext i j
    fin_cases i; fin_cases j
    rw [one_div] at m2q a0h
    rw [one_div] at m2q
    simp [mm, mtr, dM, litE, m21, a02, m2q, a0h]
  · have e1 : max |(1 : ℝ)| 1e-50 = 1 := by rw [abs_one]; norm_num
    have e0 : max |(0 : ℝ)| 1e-50 = 1e-50 := by rw [abs_zero]; norm_num
    have e3 : max |(3 : ℝ)| 1e-50 = 3 := by rw [abs_of_pos (by norm_num)]; norm_num
    have e2 : max |(2 : ℝ)| 1e-50 = 2 := by rw [abs_of_pos (by norm_num)]; norm_num
    have eh : max |(1 / 2 : ℝ)| 1e-50 = 1 / 2 := by rw [abs_of_pos (by norm_num)]; norm_num
    have g1 : mgM !![(1 : ℝ)] = !![1] := by ext i j; fin_cases i; fin_cases j; exact e1
    have g2 : mgM !![(2 : ℝ)] = !![2] := by ext i j; fin_cases i; fin_cases j; exact e2
    have gh : mgM !![(1 / 2 : ℝ)] = !![1 / 2] := by ext i j; fin_cases i; fin_cases j; exact eh
    have g0 : mgV ![(0 : ℝ)] = ![1e-50] := by ext i; fin_cases i; exact e0
    have g3 : mgV ![(3 : ℝ)] = ![3] := by ext i; fin_cases i; exact e3
    simp only [oneState, Modest, Gained.mags, Gained.Measures, g0, g1, g2, g3, gh]
    norm_num [Matrix.mul_apply, Matrix.mulVec, Matrix.vecMul, Matrix.vecHead, dotProduct, Matrix.one_apply]
  · intro g hg
    simp only [oneState, List.mem_cons, List.not_mem_nil, or_false] at hg
    rcases hg with rfl | rfl
    · exact cov 1 (by norm_num)
    · exact cov 2 (by norm_num)

end witness

end NavFuse.Props
