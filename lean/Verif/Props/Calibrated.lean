import Verif.Props.SensorErrors
import Verif.Props.Compensator

/-! # Property C135: sensors, compensator and navigator together -/

namespace NavFuse.Props
open Matrix NavFuse.Spec NavFuse.Strapdown NavFuse.XR
open NavFuse.Props.Comp (errModel compG accel_eval gyro_eval comp_X)

/-- the errors of a sensor: bias per sample, misalignments, scale factors -/
structure Calib where
  b : V3 ℝ
  m : Fin 6 → ℝ
  sf : V3 ℝ

/-- the matrix of the error model -/
noncomputable def Calib.mat (c : Calib) : M3 ℝ := errModel c.m c.sf
/-- what a sensor with these errors puts out when the true increment is `v` -/
noncomputable def Calib.raw (c : Calib) (v : V3 ℝ) : V3 ℝ := c.b + c.mat⁻¹ *ᵥ v
/-- the increment after compensation with the errors `c`, when the output is `x` -/
noncomputable def Calib.corrected (c : Calib) (x : V3 ℝ) : V3 ℝ := c.mat *ᵥ (x - c.b)

section program
variable {α : Type} [Add α] [Sub α] [Mul α] [Div α] [Neg α] [Flt α]

/-- The program the two classes are made for: compensate both raw measurements and hand the results to the navigator, for every sample. -/
def navigate (c : Compensator.St α) : St α → List (V3 α × V3 α × Int) → Out (List Bool × St α)
  | s, [] => .ok ([], s)
  | s, x :: xs => do
    let a ← Compensator.compensateAccelerometer c x.1
    let g ← Compensator.compensateGyroscope c x.2.1
    let r ← integrate s a.2 g.2 x.2.2
    let q ← navigate c r.2 xs
    return ((a.1 && g.1 && r.1) :: q.1, q.2)
end program

/-- the compensator holds the errors `A` of the accelerometers and `G` of the gyroscopes -/
def HoldsX (c : Compensator.St XR) (A G : Calib) : Prop :=
  (c.ba = some (finV A.b) ∧ c.ma = ⟨6, finV A.m⟩ ∧ c.sfa = some (finV A.sf)) ∧ (c.bg = some (finV G.b) ∧ c.mg = ⟨6, finV G.m⟩ ∧ c.sfg = some (finV G.sf))
def Holds (c : Compensator.St ℝ) (A G : Calib) : Prop :=
  (c.ba = some A.b ∧ c.ma = ⟨6, A.m⟩ ∧ c.sfa = some A.sf) ∧ (c.bg = some G.b ∧ c.mg = ⟨6, G.m⟩ ∧ c.sfg = some G.sf)

/-- C135. With the right errors in the compensator, the program run on the raw measurements does exactly what the navigator does on the true increments:
the same outcome call by call, whatever the flight and the state of the navigator, failures and undefined behaviour included. -/
theorem C135_calibrated (c : Compensator.St XR) (A G : Calib) (hc : HoldsX c A G) (hA : IsUnit A.mat.det) (hG : IsUnit G.mat.det) (s : St XR)
    (xs : List (V3 ℝ × V3 ℝ × Int)) :
    navigate c s (xs.map fun x => (finV (A.raw x.1), finV (G.raw x.2.1), x.2.2)) = run s (xs.map fun x => .integ (finV x.1) (finV x.2.1) x.2.2) := by
  have e : ∀ (K : Calib), IsUnit K.mat.det → ∀ v, errModel K.m K.sf *ᵥ (K.raw v - K.b) = v := fun K hK v => by
    rw [Calib.raw, add_sub_cancel_left, mulVec_mulVec, show errModel K.m K.sf = K.mat from rfl, mul_nonsing_inv _ hK, one_mulVec]
  induction xs generalizing s with
  | nil => rfl
  | cons x xs ih =>
    obtain ⟨⟨a1, a2, a3⟩, g1, g2, g3⟩ := hc
    simp only [List.map_cons, navigate, run, call, accel_eval c _ _ _ _ a1 a2 a3, gyro_eval c _ _ _ _ g1 g2 g3, comp_X, e A hA, e G hG, osimp]
    cases integrate s (finV x.1) (finV x.2.1) x.2.2 with
    | error _ => rfl
    | ok r => simp only [osimp, ih r.2, Bool.true_and]

theorem comp_R (K : Calib) (x : V3 ℝ) : compG K.b K.m K.sf x = K.corrected x := by
  have h1 : (!![K.sf 0, 0, 0; 0, K.sf 1, 0; 0, 0, K.sf 2] : M3 ℝ) = Matrix.diagonal K.sf := by
    ext i j; fin_cases i <;> fin_cases j <;> simp [Matrix.diagonal]
  simp only [compG, rsimp, Calib.corrected, Calib.mat, errModel, h1]

/-- the program is a run of the navigator on the compensated increments -/
theorem navigate_eq (c : Compensator.St ℝ) (A G : Calib) (hc : Holds c A G) (s : St ℝ) (xs : List (V3 ℝ × V3 ℝ × Int)) :
    navigate c s xs = run s (xs.map fun x => .integ (A.corrected x.1) (G.corrected x.2.1) x.2.2) := by
  induction xs generalizing s with
  | nil => rfl
  | cons x xs ih =>
    obtain ⟨⟨a1, a2, a3⟩, g1, g2, g3⟩ := hc
    simp only [List.map_cons, navigate, run, call, accel_eval c _ _ _ _ a1 a2 a3, gyro_eval c _ _ _ _ g1 g2 g3, comp_R, osimp]
    cases integrate s (A.corrected x.1) (G.corrected x.2.1) x.2.2 with
    | error _ => rfl
    | ok r => simp only [osimp, ih r.2, Bool.true_and]

/-- How far the errors `K'` held by the compensator are from the errors `K` of the sensor: `κ` relative to the increment, `β` per second, with samples
at least a millisecond apart. -/
structure NearCalib (K K' : Calib) (κ β : ℝ) : Prop where
  ratio : ∀ v, len3 (K'.mat *ᵥ (K.mat⁻¹ *ᵥ v) - v) ≤ κ * len3 v
  bias : len3 (K'.mat *ᵥ (K.b - K'.b)) ≤ β / 1000

theorem NearCalib.residual {K K' : Calib} {κ β L : ℝ} (h : NearCalib K K' κ β) (hκ : 0 ≤ κ) (hβ : 0 ≤ β) {v : V3 ℝ} {d : ℝ} (hd : 1000 / 1000000 ≤ d)
    (hv : len3 v ≤ L * d) : len3 (K'.corrected (K.raw v) - v) ≤ (κ * L + β) * d := by
  have e : K'.corrected (K.raw v) - v = (K'.mat *ᵥ (K.mat⁻¹ *ᵥ v) - v) + K'.mat *ᵥ (K.b - K'.b) := by
    rw [Calib.corrected, Calib.raw, show K.b + K.mat⁻¹ *ᵥ v - K'.b = K.mat⁻¹ *ᵥ v + (K.b - K'.b) by abel, mulVec_add]; abel
  rw [e]
  refine (len3_add _ _).trans ((add_le_add (h.ratio v) h.bias).trans ?_)
  have h1 := mul_le_mul_of_nonneg_left hv hκ
  have h2 := mul_le_mul_of_nonneg_left hd hβ
  norm_num at h2
  nlinarith

/-- steps between 1 and 20 ms, specific forces at most 40 m/s², rates at most `ω` rad/s, and no angle increment that is zero, neither the true one nor
the compensated one -/
def Flown (G G' : Calib) (ω : ℝ) : Int → List (V3 ℝ × V3 ℝ × Int) → Prop
  | _, [] => True
  | t, x :: xs => (1000 ≤ x.2.2 - t ∧ x.2.2 - t ≤ 20000) ∧ len3 x.1 ≤ 40 * (((x.2.2 - t : Int) : ℝ) / 1000000)
      ∧ len3 x.2.1 ≤ ω * (((x.2.2 - t : Int) : ℝ) / 1000000) ∧ x.2.1 ≠ 0 ∧ G'.corrected (G.raw x.2.1) ≠ 0 ∧ Flown G G' ω x.2.2 xs

/-- C135. With errors in the compensator that are not quite those of the sensors, the program stays as close to the navigator with true increments as
C128 says for accelerometers wrong by `40 κ + β` m/s² and gyroscopes wrong by `ω κ' + β'` rad/s. -/
theorem C135_residual {κ β κ' β' ω ε δ : ℝ} (hκ : 0 ≤ κ) (hβ : 0 ≤ β) (hκ' : 0 ≤ κ') (hβ' : 0 ≤ β') (hω : 0 ≤ ω) (ha : 40 * κ + β ≤ 10) (hε : 0 ≤ ε)
    (A A' G G' : Calib) (nA : NearCalib A A' κ β) (nG : NearCalib G G' κ' β') (c : Compensator.St ℝ) (hc : Holds c A' G')
    (s sx : St ℝ) (lla vNed rph lla' vNed' rph' : V3 ℝ) (t : Int) (xs : List (V3 ℝ × V3 ℝ × Int)) (hx : Flown G G' ω t xs)
    (hC : Cruising (Strapdown.init sx lla vNed rph t).2 (xs.map fun x => .integ x.1 x.2.1 x.2.2))
    (h0 : |lla' 0 - lla 0| ≤ 1.6e-7 * ε) (h1 : |lla' 1 - lla 1| ≤ 5e-7 * ε) (h2 : |lla' 2 - lla 2| ≤ ε) (hv : ∀ i, |vNed' i - vNed i| ≤ 0.002 * ε)
    (hr : |rph' 0 - rph 0| + |rph' 1 - rph 1| + |rph' 2 - rph 2| ≤ δ) (T g B : ℝ) (hT : T = (((xs.getLast?.map fun x => x.2.2).getD t - t : Int) : ℝ) / 1000000)
    (hg : g = ω * κ' + β') (hB : B = Real.exp (0.0027 * T) * (ε + T * (26000 * (δ + g * T) + 520 * (40 * κ + β)))) (hB1 : B ≤ 1) (hδ : δ + g * T ≤ 1) :
    ∃ s' sx' p' v' R' p v R,
      navigate c (Strapdown.init s lla' vNed' rph' t).2 (xs.map fun x => (A.raw x.1, G.raw x.2.1, x.2.2)) = .ok (List.replicate xs.length true, s')
      ∧ run (Strapdown.init sx lla vNed rph t).2 (xs.map fun x => .integ x.1 x.2.1 x.2.2) = .ok (List.replicate xs.length true, sx')
      ∧ (s'.lla = some p' ∧ s'.vNed = some v' ∧ s'.RB2N = some R') ∧ (sx'.lla = some p ∧ sx'.vNed = some v ∧ sx'.RB2N = some R)
      ∧ |p' 0 - p 0| ≤ 1.6e-7 * B ∧ |p' 1 - p 1| ≤ 5e-7 * B ∧ |p' 2 - p 2| ≤ B ∧ (∀ i, |v' i - v i| ≤ 0.002 * B)
      ∧ ∀ i, len3 (R' i - R i) ≤ δ + g * T := by
  set smp : V3 ℝ × V3 ℝ × Int → Sample := fun x => ⟨x.1, x.2.1, A'.corrected (A.raw x.1), G'.corrected (G.raw x.2.1), x.2.2⟩ with hsmp
  have e1 : trueCalls (xs.map smp) = xs.map fun x => .integ x.1 x.2.1 x.2.2 := by rw [trueCalls, List.map_map]; rfl
  have e2 : measCalls (xs.map smp) = (xs.map fun x => (A.raw x.1, G.raw x.2.1, x.2.2)).map fun x => .integ (A'.corrected x.1) (G'.corrected x.2.1) x.2.2 := by
    rw [measCalls, List.map_map, List.map_map]; rfl
  have e3 : ∀ (xs : List (V3 ℝ × V3 ℝ × Int)) (t : Int), endTime t (xs.map smp) = (xs.getLast?.map fun x => x.2.2).getD t := by
    intro xs
    induction xs with
    | nil => intro t; rfl
    | cons x xs ih =>
      intro t
      rw [List.map_cons, endTime, ih]
      cases xs with
      | nil => rfl
      | cons y ys => simp [List.getLast?_cons]
  have hm : ∀ (xs : List (V3 ℝ × V3 ℝ × Int)) (t : Int), Flown G G' ω t xs → Measured (κ * 40 + β) (κ' * ω + β') t (xs.map smp) := by
    intro xs
    induction xs with
    | nil => intro t _; trivial
    | cons x xs ih =>
      intro t hx
      obtain ⟨k1, k2, k3, k4, k5, k6⟩ := hx
      have hd : (1000 : ℝ) / 1000000 ≤ ((x.2.2 - t : Int) : ℝ) / 1000000 := by
        have : (1000 : ℝ) ≤ ((x.2.2 - t : Int) : ℝ) := by exact_mod_cast k1.1
        linarith
      have rA := nA.residual hκ hβ hd k2
      have rG := nG.residual hκ' hβ' hd k3
      refine ⟨k1, k2.trans (by nlinarith), ?_, k4, k5, rA, rG, ih _ k6⟩
      have := len3_add (A'.corrected (A.raw x.1) - x.1) x.1
      rw [sub_add_cancel] at this
      refine this.trans ((add_le_add rA k2).trans ?_)
      rw [← add_mul]
      exact mul_le_mul_of_nonneg_right (by linarith) (by linarith)
  have hT' : T = ((endTime t (xs.map smp) - t : Int) : ℝ) / 1000000 := by rw [e3, hT]
  obtain ⟨s', sx', p', v', R', p, v, R, f1, f2, f3⟩ := C128_sensor_errors (a := κ * 40 + β) (g := g) (ε := ε) (δ := δ) (by positivity) (by linarith)
    (by rw [hg]; positivity) hε s sx lla vNed rph lla' vNed' rph' t (xs.map smp) (by rw [hg, mul_comm ω]; exact hm xs t hx) (by rw [e1]; exact hC)
    h0 h1 h2 hv hr T B hT' (by rw [hB, mul_comm κ]) hB1 hδ
  have open_run : ∀ (s : St ℝ) (lla vNed rph : V3 ℝ) (cs : List (Call ℝ)) bs s', run s (.init lla vNed rph t :: cs) = .ok (true :: bs, s') →
      run (Strapdown.init s lla vNed rph t).2 cs = .ok (bs, s') := by
    intro s lla vNed rph cs bs s' h
    simp only [run, call, osimp] at h
    cases hq : run (Strapdown.init s lla vNed rph t).2 cs with
    | error _ => rw [hq] at h; simp [osimp] at h
    | ok q =>
      rw [hq] at h
      simp only [osimp, Except.ok.injEq, Prod.mk.injEq, List.cons.injEq] at h
      obtain ⟨⟨-, h2⟩, h3⟩ := h
      rw [← h2, ← h3]
  refine ⟨s', sx', p', v', R', p, v, R, ?_, ?_, f3⟩
  · rw [navigate_eq c A' G' hc, ← e2]
    have := open_run _ _ _ _ _ _ _ f1
    rwa [List.length_map] at this
  · rw [← e1]
    have := open_run _ _ _ _ _ _ _ f2
    rwa [List.length_map] at this

/-- a sensor with a bias and one scale factor for its three axes -/
noncomputable def scaled (b : V3 ℝ) (k : ℝ) : Calib := ⟨b, 0, ![k, k, k]⟩

theorem scaled_mat (b : V3 ℝ) (k : ℝ) : (scaled b k).mat = k • (1 : M3 ℝ) := by
  ext i j
  simp only [scaled, Calib.mat, errModel, diagonal_mul]
  fin_cases i <;> fin_cases j <;> simp

/-- the true errors may have misalignments as well -/
example : ∃ (c : Compensator.St XR) (A G : Calib), HoldsX c A G ∧ IsUnit A.mat.det ∧ IsUnit G.mat.det ∧ A.m 0 ≠ 0 ∧ A.b ≠ 0 ∧ A.sf ≠ 1 := by
  refine ⟨⟨some (finV ![1, 2, 3]), ⟨6, finV ![1, 0, 0, 0, 0, 0]⟩, some (finV ![2, 3, 4]), some (finV 0), ⟨6, finV 0⟩, some (finV ![5, 5, 5])⟩,
    ⟨![1, 2, 3], ![1, 0, 0, 0, 0, 0], ![2, 3, 4]⟩, scaled 0 5, ⟨⟨rfl, rfl, rfl⟩, rfl, rfl, rfl⟩, ?_, ?_, by simp, ?_, ?_⟩
  · rw [isUnit_iff_ne_zero, Calib.mat, errModel, det_mul, det_diagonal, Fin.prod_univ_three, det_fin_three]; simp
  · rw [isUnit_iff_ne_zero, scaled_mat, det_smul, det_one]; norm_num
  · exact fun h => by simpa using congrFun h 0
  · exact fun h => by simpa using congrFun h 0

theorem scaled_near (b b' : V3 ℝ) {κ β : ℝ} (hκ : 0 ≤ κ) (hb : (1 + κ) * len3 (b - b') ≤ β / 1000) : NearCalib (scaled b 1) (scaled b' (1 + κ)) κ β := by
  constructor
  · intro v
    rw [scaled_mat, scaled_mat, one_smul, inv_one, one_mulVec, smul_mulVec, one_mulVec, add_smul, one_smul, add_sub_cancel_left, len3_smul, abs_of_nonneg hκ]
  · rw [scaled_mat, smul_mulVec, one_mulVec, len3_smul, abs_of_nonneg (by linarith)]; exact hb

/-- two samples of 10 ms, sensors with biases, a compensator that knows the biases only nearly and takes the scale factors 10⁻⁵ too large -/
example (sx : St ℝ) : ∃ (A A' G G' : Calib) (xs : List (V3 ℝ × V3 ℝ × Int)), NearCalib A A' 1e-5 1e-4 ∧ NearCalib G G' 1e-5 1e-6 ∧ A.b ≠ A'.b ∧ xs.length = 2
    ∧ Flown G G' 1 0 xs ∧ Cruising (Strapdown.init sx ![3 / 4, 1, 1000] ![100, 0, 0] 0 0).2 (xs.map fun x => .integ x.1 x.2.1 x.2.2) := by
  have x : ∀ c : ℝ, len3 ![c, 0, 0] = |c| := fun c => by simp [len3, Real.sqrt_sq_eq_abs]
  have v : len3 ![1 / 100, 0, -(49 / 500)] ≤ 0.2 := by
    rw [len3]
    refine Real.sqrt_le_iff.2 ⟨by norm_num, ?_⟩
    simp only [cons_val]; norm_num
  have hG : (scaled 0 (1 + 1e-5)).corrected ((scaled 0 1).raw ![1 / 1000, 0, 0]) = ![1.00001 / 1000, 0, 0] := by
    rw [Calib.corrected, Calib.raw, scaled_mat, scaled_mat, one_smul, inv_one, one_mulVec, smul_mulVec, one_mulVec]
    ext i; fin_cases i <;> simp [scaled] <;> norm_num
  have ne : ∀ c : ℝ, c ≠ 0 → ![c, 0, 0] ≠ (0 : V3 ℝ) := fun c hc h => hc (by simpa using congrFun h 0)
  refine ⟨scaled ![1e-8, 0, 0] 1, scaled 0 (1 + 1e-5), scaled 0 1, scaled 0 (1 + 1e-5),
    [(![1 / 100, 0, -(49 / 500)], ![1 / 1000, 0, 0], 10000), (![1 / 100, 0, -(49 / 500)], ![1 / 1000, 0, 0], 20000)],
    scaled_near _ _ (by norm_num) ?_, scaled_near _ _ (by norm_num) ?_, ne _ (by norm_num), rfl, ?_, ?_⟩
  · rw [sub_zero, x]; norm_num
  · rw [sub_zero, show (0 : V3 ℝ) = ![0, 0, 0] by ext i; fin_cases i <;> rfl, x]; norm_num
  · refine ⟨by norm_num, v.trans (by norm_num), ?_, ne _ (by norm_num), hG ▸ ne _ (by norm_num), by norm_num, v.trans (by norm_num), ?_, ne _ (by norm_num),
      hG ▸ ne _ (by norm_num), trivial⟩ <;> (simp only [x]; norm_num)
  · refine measured_cruise (a := 0) (g := 0) [⟨![1 / 100, 0, -(49 / 500)], ![1 / 1000, 0, 0], ![1 / 100, 0, -(49 / 500)], ![1 / 1000, 0, 0], 10000⟩,
      ⟨![1 / 100, 0, -(49 / 500)], ![1 / 1000, 0, 0], ![1 / 100, 0, -(49 / 500)], ![1 / 1000, 0, 0], 20000⟩] sx ?_ (by simp [endTime]) ?_
    · have z : len3 (0 : V3 ℝ) = 0 := by rw [show (0 : V3 ℝ) = ![0, 0, 0] by ext i; fin_cases i <;> rfl, x, abs_zero]
      refine ⟨by norm_num, v.trans (by norm_num), v.trans (by norm_num), ne _ (by norm_num), ne _ (by norm_num), ?_, ?_, by norm_num, v.trans (by norm_num),
        v.trans (by norm_num), ne _ (by norm_num), ne _ (by norm_num), ?_, ?_, trivial⟩ <;> simp only [sub_self, z, zero_mul, le_refl]
    · intro c hc
      have : c.dTh = ![1 / 1000, 0, 0] := by
        simp only [List.mem_cons, List.not_mem_nil, or_false] at hc
        rcases hc with rfl | rfl <;> rfl
      rw [this, x]; norm_num

end NavFuse.Props
