import Verif.Lemmas.TurnLip
import Verif.Props.NavigatorRnd

/-! # Property C128: how sensor and initial errors spread through the navigator -/

namespace NavFuse.Props
open Matrix NavFuse.Spec NavFuse.Strapdown NavFuse.NavUtils

/-- one sample: the true increments, the measured ones, and the time stamp -/
structure Sample where
  dV : V3 ℝ
  dTh : V3 ℝ
  dV' : V3 ℝ
  dTh' : V3 ℝ
  tov : Int

def trueCalls (cs : List Sample) : List (Call ℝ) := cs.map fun c => .integ c.dV c.dTh c.tov
def measCalls (cs : List Sample) : List (Call ℝ) := cs.map fun c => .integ c.dV' c.dTh' c.tov

/-- steps between 1 and 20 ms, specific forces at most 50 m/s², angle increments not zero; the accelerometers are wrong by at most `a` m/s² and the
gyroscopes by at most `g` rad/s -/
def Measured (a g : ℝ) : Int → List Sample → Prop
  | _, [] => True
  | t, c :: cs => (1000 ≤ c.tov - t ∧ c.tov - t ≤ 20000) ∧ len3 c.dV ≤ 50 * (((c.tov - t : Int) : ℝ) / 1000000)
      ∧ len3 c.dV' ≤ 50 * (((c.tov - t : Int) : ℝ) / 1000000) ∧ c.dTh ≠ 0 ∧ c.dTh' ≠ 0
      ∧ len3 (c.dV' - c.dV) ≤ a * (((c.tov - t : Int) : ℝ) / 1000000) ∧ len3 (c.dTh' - c.dTh) ≤ g * (((c.tov - t : Int) : ℝ) / 1000000)
      ∧ Measured a g c.tov cs

/-- time of the last sample -/
def endTime : Int → List Sample → Int
  | t, [] => t
  | _, c :: cs => endTime c.tov cs

/-- growth of the error, in metres: `ε` is the initial error of position and velocity, `δ` of the attitude -/
noncomputable def drift (ε δ a g T : ℝ) : ℝ := Real.exp (2.7e-3 * T) * (ε + T * (26000 * (δ + g * T) + 520 * a))

theorem endTime_ge {a g : ℝ} (t : Int) (cs : List Sample) (h : Measured a g t cs) : t ≤ endTime t cs := by
  induction cs generalizing t with
  | nil => exact le_rfl
  | cons c cs ih =>
    have := ih c.tov h.2.2.2.2.2.2.2
    have := h.1.1
    show t ≤ endTime c.tov cs
    omega

theorem drift_ge {ε δ a g T : ℝ} (hε : 0 ≤ ε) (hδ : 0 ≤ δ) (ha : 0 ≤ a) (hg : 0 ≤ g) (hT : 0 ≤ T) : ε ≤ drift ε δ a g T := by
  have h1 : (1 : ℝ) ≤ Real.exp (2.7e-3 * T) := Real.one_le_exp (by positivity)
  have h2 : 0 ≤ T * (26000 * (δ + g * T) + 520 * a) := by positivity
  unfold drift
  nlinarith [mul_nonneg (sub_nonneg.2 h1) (add_nonneg hε h2)]

theorem drift_step {ε δ a g T t : ℝ} (hε : 0 ≤ ε) (hδ : 0 ≤ δ) (ha : 0 ≤ a) (hg : 0 ≤ g) (hT : 0 ≤ T) (ht : 0 ≤ t) :
    drift ((1 + 2.7e-3 * t) * ε + t * (26000 * (δ + g * t) + 520 * a)) (δ + g * t) a g T ≤ drift ε δ a g (t + T) := by
  unfold drift
  rw [mul_add (2.7e-3 : ℝ), Real.exp_add, mul_comm (Real.exp (2.7e-3 * t)), mul_assoc (Real.exp (2.7e-3 * T))]
  refine mul_le_mul_of_nonneg_left ?_ (Real.exp_nonneg _)
  have h1 : 1 + 2.7e-3 * t ≤ Real.exp (2.7e-3 * t) := by linarith [Real.add_one_le_exp (2.7e-3 * t)]
  have h2 : (1 : ℝ) ≤ Real.exp (2.7e-3 * t) := Real.one_le_exp (by positivity)
  set E := Real.exp (2.7e-3 * t)
  have a1 : (1 + 2.7e-3 * t) * ε ≤ E * ε := mul_le_mul_of_nonneg_right h1 hε
  have hX : 0 ≤ (t + T) * (26000 * (δ + g * (t + T)) + 520 * a) := by positivity
  have a2 := le_mul_of_one_le_left hX h2
  have a3 : 0 ≤ t * (26000 * (g * T)) := by positivity
  calc _ = (1 + 2.7e-3 * t) * ε + (t + T) * (26000 * (δ + g * (t + T)) + 520 * a) - t * (26000 * (g * T)) := by ring
    _ ≤ E * ε + E * ((t + T) * (26000 * (δ + g * (t + T)) + 520 * a)) := by linarith
    _ = _ := by ring

/-- one step with errors in everything -/
theorem step_err {dV dV' p v p' v' : V3 ℝ} {E E' : M3 ℝ} {d : Int} {ε δ a : ℝ}
    (hd : 1000 ≤ d ∧ d ≤ 20000) (hV : len3 dV ≤ 50 * ((d : ℝ) / 1000000)) (hV' : len3 dV' ≤ 50 * ((d : ℝ) / 1000000)) (hE : IsRot E) (hE' : IsRot E')
    (hδ0 : 0 ≤ δ) (hδ : δ ≤ 1) (ha0 : 0 ≤ a) (ha : a ≤ 50) (hEE : ∀ i, len3 (E' i - E i) ≤ δ) (hVV : len3 (dV' - dV) ≤ a * ((d : ℝ) / 1000000))
    (hε : 0 ≤ ε) (hε1 : ε ≤ 1) (hC : Cruise p v) (hy : ∀ i, |st6 p' v' i - st6 p v i| ≤ wt i * ε) (i : Fin 6) :
    |stepY p' v' dV' E' d i - stepY p v dV E d i|
      ≤ wt i * ((1 + 2.7e-3 * ((d : ℝ) / 1000000)) * ε + (d : ℝ) / 1000000 * (26000 * δ + 520 * a)) := by
  have hF := hC.flight hε1 hy
  have hF' : Flight p v := hC.flight (ε := 0) (by norm_num) (by simp)
  have hE1 : ∀ i, len3 (E i) ≤ 11 / 10 := fun i => by rw [hE.row_len3]; norm_num
  have hE2 : ∀ i, len3 (E' i) ≤ 11 / 10 := fun i => by rw [hE'.row_len3]; norm_num
  have hd1 : (1000 : ℝ) ≤ d := by exact_mod_cast hd.1
  have hp : (0 : ℝ) < (d : ℝ) / 1000000 := by positivity
  have s2 := step_force2 (κ := 50 * δ + a) (by positivity) (by linarith) hd hE2 hE1 hV' hV hF (fun i => by
    have e3 : ∀ (A : M3 ℝ) (w : V3 ℝ), mvec A w i = A i ⬝ᵥ w := fun A w => by simp only [rsimp]; rfl
    have e4 : E' i ⬝ᵥ dV' - E i ⬝ᵥ dV = (E' i - E i) ⬝ᵥ dV' + E i ⬝ᵥ (dV' - dV) := by rw [sub_dotProduct, dotProduct_sub]; ring
    rw [e3, e3, e4]
    refine (abs_add_le _ _).trans ?_
    have k1 := (dot_le_len3 (E' i - E i) dV').trans (mul_le_mul (hEE i) hV' (len3_nonneg' _) hδ0)
    have k2 := (dot_le_len3 (E i) (dV' - dV)).trans (le_of_eq (by rw [hE.row_len3, one_mul]))
    linarith) i
  have s3 := step_lip hε hε1 hd hE1 hV hF hF' hy i
  have t2 := abs_sub_le (stepY p' v' dV' E' d i) (stepY p' v' dV E d i) (stepY p v dV E d i)
  have : wt i * (520 * ((d : ℝ) / 1000000) * (50 * δ + a)) = wt i * ((d : ℝ) / 1000000 * (26000 * δ + 520 * a)) := by ring
  linarith

theorem run_err {a g : ℝ} (ha0 : 0 ≤ a) (ha : a ≤ 50) (hg : 0 ≤ g) (cs : List Sample) (s : St ℝ) (p' v' : V3 ℝ) (E' : M3 ℝ) (t : Int)
    (sx : St ℝ) (p v : V3 ℝ) (E : M3 ℝ) (hs : Ready s p' v' E' t) (hx : Ready sx p v E t) (hE : IsRot E) (hE' : IsRot E') (hc : Measured a g t cs)
    (hC : Cruising sx (trueCalls cs)) (ε δ : ℝ) (hε : 0 ≤ ε) (hδ0 : 0 ≤ δ)
    (hA : ∀ i, len3 (E' i - E i) ≤ δ) (hδ : δ + g * (((endTime t cs - t : Int) : ℝ) / 1000000) ≤ 1)
    (hy : ∀ i, |st6 p' v' i - st6 p v i| ≤ wt i * ε)
    (hB : drift ε δ a g (((endTime t cs - t : Int) : ℝ) / 1000000) ≤ 1) :
    ∃ s' sx' q' w' F' q w F, run s (measCalls cs) = .ok (List.replicate cs.length true, s')
      ∧ run sx (trueCalls cs) = .ok (List.replicate cs.length true, sx')
      ∧ Ready s' q' w' F' (endTime t cs) ∧ Ready sx' q w F (endTime t cs)
      ∧ (∀ i, |st6 q' w' i - st6 q w i| ≤ wt i * drift ε δ a g (((endTime t cs - t : Int) : ℝ) / 1000000))
      ∧ IsRot F ∧ IsRot F' ∧ ∀ i, len3 (F' i - F i) ≤ δ + g * (((endTime t cs - t : Int) : ℝ) / 1000000) := by
  induction cs generalizing s p' v' E' t sx p v E ε δ with
  | nil =>
    refine ⟨s, sx, p', v', E', p, v, E, rfl, rfl, hs, hx, fun i => ?_, hE, hE', fun i => by simpa [endTime] using hA i⟩
    have : drift ε δ a g (((endTime t [] - t : Int) : ℝ) / 1000000) = ε := by simp [drift, endTime]
    rw [this]; exact hy i
  | cons c cs ih =>
    obtain ⟨dV, dTh, dV', dTh', t'⟩ := c
    obtain ⟨hd, hV, hV', h0, h0', hVV, hTT', hc'⟩ := hc
    simp only at hd hV hV' h0 h0' hVV hTT' hc'
    have hlast := endTime_ge t' cs hc'
    have hT : (0 : ℝ) ≤ ((endTime t' cs - t' : Int) : ℝ) / 1000000 := by
      have : (0 : ℝ) ≤ ((endTime t' cs - t' : Int) : ℝ) := by exact_mod_cast (by omega)
      positivity
    have ht : (0 : ℝ) ≤ ((t' - t : Int) : ℝ) / 1000000 := by
      have : (0 : ℝ) ≤ ((t' - t : Int) : ℝ) := by exact_mod_cast (by omega)
      positivity
    have hTT : ((endTime t (⟨dV, dTh, dV', dTh', t'⟩ :: cs) - t : Int) : ℝ) / 1000000
        = ((t' - t : Int) : ℝ) / 1000000 + ((endTime t' cs - t' : Int) : ℝ) / 1000000 := by
      show ((endTime t' cs - t : Int) : ℝ) / 1000000 = _
      push_cast; ring
    have hR1 := hE.mul (attInc_isRot _ h0)
    have hR2 := hE'.mul (attInc_isRot _ h0')
    have hst := attitude_drift hE h0' h0 hA hTT'
    have em : ∀ (E : M3 ℝ) (φ : V3 ℝ), mmul E (attInc φ) = E * attInc φ := fun E φ => by simp only [rsimp]
    have fit : -2 ^ 63 ≤ t' - t ∧ t' - t < 2 ^ 63 := by omega
    have hev := integrate_eval s p' v' dV' dTh' E' t t' hs fit
    have hex := integrate_eval sx p v dV dTh E t t' hx fit
    have hC0 : Cruise p v := hC 0 [] sx p v rfl hx.1 hx.2.1
    rw [hTT] at hB hδ ⊢
    have hgt : 0 ≤ g * (((t' - t : Int) : ℝ) / 1000000) := mul_nonneg hg ht
    have hgT : 0 ≤ g * (((endTime t' cs - t' : Int) : ℝ) / 1000000) := mul_nonneg hg hT
    have hε1 : ε ≤ 1 := (drift_ge hε hδ0 ha0 hg (by positivity)).trans hB
    have hq := drift_step hε hδ0 ha0 hg hT ht
    rw [mul_add] at hδ
    have key := fun i => step_err (dV := dV) (dV' := dV') (E := E * attInc dTh) (E' := E' * attInc dTh') (δ := δ + g * (((t' - t : Int) : ℝ) / 1000000))
      hd hV hV' hR1 hR2 (by linarith) (by linarith) ha0 ha hst hVV hε hε1 hC0 hy i
    set Y := nextY p' v' dV' E' dTh' (t' - t) with hY
    set Z := nextY p v dV E dTh (t' - t) with hZ
    have key2 : ∀ i, |Y i - Z i| ≤ wt i * ((1 + 2.7e-3 * (((t' - t : Int) : ℝ) / 1000000)) * ε
        + ((t' - t : Int) : ℝ) / 1000000 * (26000 * (δ + g * (((t' - t : Int) : ℝ) / 1000000)) + 520 * a)) := fun i => by
      have := key i
      rw [← em, ← em] at this
      exact this
    clear_value Y Z
    generalize hS : (⟨_, _, _, _, _, _, _, _, _⟩ : St ℝ) = S at hev
    generalize hSx : (⟨_, _, _, _, _, _, _, _, _⟩ : St ℝ) = Sx at hex
    have hR : Ready S ![Y 0, Y 1, Y 2] ![Y 3, Y 4, Y 5] (E' * attInc dTh') t' := by rw [← hS, ← em]; exact ⟨rfl, rfl, rfl, rfl⟩
    have hRx : Ready Sx ![Z 0, Z 1, Z 2] ![Z 3, Z 4, Z 5] (E * attInc dTh) t' := by rw [← hSx, ← em]; exact ⟨rfl, rfl, rfl, rfl⟩
    obtain ⟨s', sx', q', w', F', q, w, F, e1, e2, e3, e4, e5, e6, e7, e8⟩ := ih S _ _ _ t' Sx _ _ _ hR hRx hR1 hR2 hc'
      (fun k bs s' p v hr hp hv => hC (k + 1) (true :: bs) s' p v (by
        rw [trueCalls, List.map_cons, List.take_succ_cons, run, call, hex]
        simp only [osimp]
        rw [show List.map _ cs = trueCalls cs from rfl, hr]; rfl) hp hv)
      _ _ (by positivity) (by positivity) hst (by linarith) (fun i => by
        have := key2 i
        fin_cases i <;> exact this) (hq.trans hB)
    refine ⟨s', sx', q', w', F', q, w, F, ?_, ?_, e3, e4, fun i => (e5 i).trans (mul_le_mul_of_nonneg_left hq (by fin_cases i <;> norm_num [wt])), e6, e7,
      fun i => (e8 i).trans (le_of_eq (by ring))⟩
    · simp only [measCalls, List.map_cons, run, call]
      rw [hev]
      simp only [osimp]
      rw [show List.map _ cs = measCalls cs from rfl, e1]
      rfl
    · simp only [trueCalls, List.map_cons, run, call]
      rw [hex]
      simp only [osimp]
      rw [show List.map _ cs = trueCalls cs from rfl, e2]
      rfl

/-- Euler angles: the rows of the matrix stored by `initialize` move by at most the sum of the changes of the angles -/
theorem euler_lip (r p h r' p' h' : ℝ) (i : Fin 3) :
    len3 ((bodyToNed r' p' h')ᵀ i - (bodyToNed r p h)ᵀ i) ≤ |r' - r| + |p' - p| + |h' - h| := by
  have tx : ∀ t v, rotX t *ᵥ v = turn ![1, 0, 0] t v := fun t v => by
    rw [turn_eq]; ext i; fin_cases i <;> simp [rotX, mulVec, dotProduct, Fin.sum_univ_three] <;> ring
  have ty : ∀ t v, rotY t *ᵥ v = turn ![0, 1, 0] t v := fun t v => by
    rw [turn_eq]; ext i; fin_cases i <;> simp [rotY, mulVec, dotProduct, Fin.sum_univ_three] <;> ring
  have tz : ∀ t v, rotZ t *ᵥ v = turn ![0, 0, 1] t v := fun t v => by
    rw [turn_eq]; ext i; fin_cases i <;> simp [rotZ, mulVec, dotProduct, Fin.sum_univ_three] <;> ring
  have l : ∀ (n : V3 ℝ), n 0 ^ 2 + n 1 ^ 2 + n 2 ^ 2 = 1 → ∀ a b u, len3 u = 1 → len3 (turn n a u - turn n b u) ≤ |a - b| := fun n hn a b u hu => by
    have := turn_lip hn hn a b u
    have h1 : len3 n = 1 := by rw [len3, hn, Real.sqrt_one]
    rwa [← sub_smul, Props.len3_smul, h1, hu, mul_one, mul_one] at this
  have c : ∀ r p h, (bodyToNed r p h)ᵀ i = rotZ h *ᵥ (rotY p *ᵥ (rotX r *ᵥ Pi.single i 1)) := fun r p h => by
    rw [mulVec_mulVec, mulVec_mulVec, mulVec_single_one]; rfl
  have hu : len3 (Pi.single i (1 : ℝ)) = 1 := by fin_cases i <;> simp [len3]
  rw [c, c]
  set u : V3 ℝ := Pi.single i 1
  have e : rotZ h' *ᵥ (rotY p' *ᵥ (rotX r' *ᵥ u)) - rotZ h *ᵥ (rotY p *ᵥ (rotX r *ᵥ u))
      = rotZ h' *ᵥ (rotY p' *ᵥ (rotX r' *ᵥ u - rotX r *ᵥ u)) + (rotZ h' *ᵥ (rotY p' *ᵥ (rotX r *ᵥ u) - rotY p *ᵥ (rotX r *ᵥ u))
        + (rotZ h' *ᵥ (rotY p *ᵥ (rotX r *ᵥ u)) - rotZ h *ᵥ (rotY p *ᵥ (rotX r *ᵥ u)))) := by
    simp only [mulVec_sub]; abel
  have h1 : len3 (rotX r *ᵥ u) = 1 := by rw [len3_mulVec (isRot_rotX r), hu]
  have h2 : len3 (rotY p *ᵥ (rotX r *ᵥ u)) = 1 := by rw [len3_mulVec (isRot_rotY p), h1]
  have k1 : len3 (rotZ h' *ᵥ (rotY p' *ᵥ (rotX r' *ᵥ u - rotX r *ᵥ u))) ≤ |r' - r| := by
    rw [len3_mulVec (isRot_rotZ h'), len3_mulVec (isRot_rotY p'), tx, tx]; exact l _ (by simp) _ _ _ hu
  have k2 : len3 (rotZ h' *ᵥ (rotY p' *ᵥ (rotX r *ᵥ u) - rotY p *ᵥ (rotX r *ᵥ u))) ≤ |p' - p| := by
    rw [len3_mulVec (isRot_rotZ h'), ty, ty]; exact l _ (by simp) _ _ _ h1
  have k3 : len3 (rotZ h' *ᵥ (rotY p *ᵥ (rotX r *ᵥ u)) - rotZ h *ᵥ (rotY p *ᵥ (rotX r *ᵥ u))) ≤ |h' - h| := by
    rw [tz, tz]; exact l _ (by simp) _ _ _ h2
  rw [e]
  refine (len3_add _ _).trans ?_
  have := len3_add (rotZ h' *ᵥ (rotY p' *ᵥ (rotX r *ᵥ u) - rotY p *ᵥ (rotX r *ᵥ u)))
    (rotZ h' *ᵥ (rotY p *ᵥ (rotX r *ᵥ u)) - rotZ h *ᵥ (rotY p *ᵥ (rotX r *ᵥ u)))
  linarith

/-- C128. Sensor and initial errors. Run the navigator once with the true initial values and increments and once with measured ones: initial position
and velocity wrong by at most `ε` (in metres; `0.002 ε` m/s for velocities), initial roll, pitch and heading by `δ` rad in sum, accelerometers by `a` m/s²
and gyroscopes by `g` rad/s at every sample. As long as the true flight stays below 71.5° of latitude, 19.99 km and 299 m/s and
B = exp(0.0027 T) (ε + T (26000 (δ + g T) + 520 a)) ≤ 1, every call of both runs succeeds and the results differ by at most B metres in altitude,
1.6·10⁻⁷ B rad in latitude, 5·10⁻⁷ B rad in longitude, 0.002 B m/s in each velocity and `δ + g T` in each row of the attitude matrix. -/
theorem C128_sensor_errors {a g ε δ : ℝ} (ha0 : 0 ≤ a) (ha : a ≤ 50) (hg : 0 ≤ g) (hε : 0 ≤ ε) (s sx : St ℝ) (lla vNed rph lla' vNed' rph' : V3 ℝ)
    (t : Int) (cs : List Sample) (hc : Measured a g t cs) (hC : Cruising (Strapdown.init sx lla vNed rph t).2 (trueCalls cs))
    (h0 : |lla' 0 - lla 0| ≤ 1.6e-7 * ε) (h1 : |lla' 1 - lla 1| ≤ 5e-7 * ε) (h2 : |lla' 2 - lla 2| ≤ ε) (hv : ∀ i, |vNed' i - vNed i| ≤ 0.002 * ε)
    (hr : |rph' 0 - rph 0| + |rph' 1 - rph 1| + |rph' 2 - rph 2| ≤ δ) (T B : ℝ) (hT : T = ((endTime t cs - t : Int) : ℝ) / 1000000)
    (hB : B = Real.exp (0.0027 * T) * (ε + T * (26000 * (δ + g * T) + 520 * a))) (hB1 : B ≤ 1) (hδ : δ + g * T ≤ 1) :
    ∃ s' sx' p' v' R' p v R, run s (.init lla' vNed' rph' t :: measCalls cs) = .ok (true :: List.replicate cs.length true, s')
      ∧ run sx (.init lla vNed rph t :: trueCalls cs) = .ok (true :: List.replicate cs.length true, sx')
      ∧ (s'.lla = some p' ∧ s'.vNed = some v' ∧ s'.RB2N = some R') ∧ (sx'.lla = some p ∧ sx'.vNed = some v ∧ sx'.RB2N = some R)
      ∧ |p' 0 - p 0| ≤ 1.6e-7 * B ∧ |p' 1 - p 1| ≤ 5e-7 * B ∧ |p' 2 - p 2| ≤ B ∧ (∀ i, |v' i - v i| ≤ 0.002 * B)
      ∧ ∀ i, len3 (R' i - R i) ≤ δ + g * T := by
  have hδ0 : 0 ≤ δ := le_trans (by positivity) hr
  have eE : ∀ rph : V3 ℝ, (Attitude.euler2Dcm rph).2 = (bodyToNed (rph 0) (rph 1) (rph 2))ᵀ := fun rph => by rw [euler_R]
  have hBs : drift ε δ a g (((endTime t cs - t : Int) : ℝ) / 1000000) = B := by
    rw [hB, drift, ← hT]
  have hready := init_ready sx lla vNed rph t
  have hready' := init_ready s lla' vNed' rph' t
  rw [eE] at hready hready'
  obtain ⟨s', sx', p', v', R', p, v, R, e1, e2, e3, e4, e5, e6, e7, e8⟩ := run_err ha0 ha hg cs _ _ _ _ t _ _ _ _ hready' hready
    (bodyToNed_isRot _ _ _).transpose (bodyToNed_isRot _ _ _).transpose hc hC ε δ hε hδ0
    (fun i => (euler_lip _ _ _ _ _ _ i).trans hr) (by rw [← hT]; exact hδ)
    (fun i => by
      fin_cases i
      · exact h0
      · exact h1
      · simpa [st6, wt] using h2
      · have := hv 0; simp only [st6, wt, cons_val]; norm_num at this ⊢; exact this
      · have := hv 1; simp only [st6, wt, cons_val]; norm_num at this ⊢; exact this
      · have := hv 2; simp only [st6, wt, cons_val]; norm_num at this ⊢; exact this) (by rw [hBs]; exact hB1)
  rw [hBs] at e5
  refine ⟨s', sx', p', v', R', p, v, R, ?_, ?_, ⟨e3.1, e3.2.1, e3.2.2.1⟩, ⟨e4.1, e4.2.1, e4.2.2.1⟩, e5 0, e5 1, (e5 2).trans (le_of_eq (one_mul B)), fun i => ?_,
    fun i => (e8 i).trans (le_of_eq (by rw [hT]))⟩
  · simp only [run, call, osimp, e1]; rfl
  · simp only [run, call, osimp, e2]; rfl
  · have h3 := e5 3
    have h4 := e5 4
    have h5 := e5 5
    simp only [st6, wt, cons_val] at h3 h4 h5
    norm_num at h3 h4 h5 ⊢
    fin_cases i
    exacts [h3, h4, h5]

/-- the same flight as a list of exactly representable arguments -/
def asExact (cs : List Sample) : List (V3 (Rnd id) × V3 (Rnd id) × Int) := cs.map fun c => (fun i => ⟨c.dV i⟩, fun i => ⟨c.dTh i⟩, c.tov)

/-- The hypotheses of C128 are met by every sequence of samples of at most one second, from 43 degrees of latitude, 1000 m and 100 m/s north, with increments
of at least 10⁻¹⁶⁰ and at most 4 rad. -/
theorem measured_cruise {a g : ℝ} (cs : List Sample) (sx : St ℝ) (hc : Measured a g 0 cs) (hT : endTime 0 cs ≤ 1000000)
    (hφ : ∀ c ∈ cs, 1e-160 ≤ len3 c.dTh ∧ len3 c.dTh ≤ 4) : Cruising (Strapdown.init sx ![3 / 4, 1, 1000] ![100, 0, 0] 0 0).2 (trueCalls cs) := by
  have hs : ∀ (t : Int) (cs : List Sample), Measured a g t cs → (∀ c ∈ cs, 1e-160 ≤ len3 c.dTh ∧ len3 c.dTh ≤ 4) → Sampled t (asExact cs) := by
    intro t cs
    induction cs generalizing t with
    | nil => intro _ _; trivial
    | cons c cs ih => intro h hφ; exact ⟨h.1, h.2.1, hφ c (by simp), ih _ h.2.2.2.2.2.2.2 fun c hc => hφ c (by simp [hc])⟩
  have he : ∀ (t : Int) (cs : List Sample), lastTime t (asExact cs) = endTime t cs := by
    intro t cs
    induction cs generalizing t with
    | nil => rfl
    | cons c cs ih => exact ih _
  have hm : exactCalls (asExact cs) = trueCalls cs := by
    rw [exactCalls, asExact, List.map_map]; rfl
  have := one_second_cruise (asExact cs) sx (hs 0 cs hc hφ) (by rw [he]; exact hT)
  rw [hm] at this
  convert this using 4
  · ext i; fin_cases i <;> rfl
  · ext i; fin_cases i <;> rfl
  · ext i; fin_cases i <;> rfl

/-- a hundred samples of 10 ms with a gyroscope error of 10⁻⁶ rad/s and an accelerometer error of 10⁻⁴ m/s² -/
def hundred : List Sample := (List.range 100).map fun (k : ℕ) =>
  ⟨![0.01, 0, -0.098], ![1e-3, 0, 0], ![0.010001, 0, -0.098], ![1.00001e-3, 0, 0], 10000 * ((k : Int) + 1)⟩

example (sx : St ℝ) : Measured 1e-4 1e-6 0 hundred ∧ Cruising (Strapdown.init sx ![3 / 4, 1, 1000] ![100, 0, 0] 0 0).2 (trueCalls hundred)
    ∧ endTime 0 hundred = 1000000 := by
  have x : ∀ c : ℝ, len3 ![c, 0, 0] = |c| := fun c => by simp [len3, Real.sqrt_sq_eq_abs]
  have v : ∀ c : ℝ, 0 ≤ c → c ≤ 0.02 → len3 ![c, 0, -0.098] ≤ 0.5 := fun c h0 h1 => by
    rw [len3]
    refine Real.sqrt_le_iff.2 ⟨by norm_num, ?_⟩
    simp only [cons_val]; norm_num at h1 ⊢; nlinarith
  have hm : ∀ n m : ℕ, Measured 1e-4 1e-6 (10000 * (m : Int)) ((List.range n).map fun (k : ℕ) =>
      ⟨![0.01, 0, -0.098], ![1e-3, 0, 0], ![0.010001, 0, -0.098], ![1.00001e-3, 0, 0], 10000 * (((k + m : ℕ) : Int) + 1)⟩)
      ∧ endTime (10000 * (m : Int)) ((List.range n).map fun (k : ℕ) =>
      ⟨![0.01, 0, -0.098], ![1e-3, 0, 0], ![0.010001, 0, -0.098], ![1.00001e-3, 0, 0], 10000 * (((k + m : ℕ) : Int) + 1)⟩) = 10000 * ((n + m : ℕ) : Int) := by
    intro n
    induction n with
    | zero => intro m; exact ⟨trivial, by simp [endTime]⟩
    | succ n ih =>
      intro m
      rw [List.range_succ_eq_map, List.map_cons, List.map_map]
      have e : ((10000 * (((0 + m : ℕ) : Int) + 1) - 10000 * (m : Int) : Int) : ℝ) = 10000 := by push_cast; ring
      have := ih (m + 1)
      have e2 : (10000 * ((m + 1 : ℕ) : Int)) = 10000 * (((0 + m : ℕ) : Int) + 1) := by push_cast; ring
      have e3 : (fun (k : ℕ) => (⟨![0.01, 0, -0.098], ![1e-3, 0, 0], ![0.010001, 0, -0.098], ![1.00001e-3, 0, 0], 10000 * (((k + m : ℕ) : Int) + 1)⟩ : Sample)) ∘ Nat.succ
          = fun (k : ℕ) => ⟨![0.01, 0, -0.098], ![1e-3, 0, 0], ![0.010001, 0, -0.098], ![1.00001e-3, 0, 0], 10000 * (((k + (m + 1) : ℕ) : Int) + 1)⟩ := by
        funext k; simp only [Function.comp]; congr 3; push_cast; ring
      rw [e2] at this
      rw [e3]
      refine ⟨⟨by simp only; push_cast; constructor <;> linarith, ?_, ?_, ?_, ?_, ?_, ?_, this.1⟩, ?_⟩
      · simp only; rw [e]; exact (v _ (by norm_num) (by norm_num)).trans (by norm_num)
      · simp only; rw [e]; exact (v _ (by norm_num) (by norm_num)).trans (by norm_num)
      · intro h; have := congrFun h 0; norm_num at this
      · intro h; have := congrFun h 0; norm_num at this
      · simp only; rw [e, show (![0.010001, 0, -0.098] : V3 ℝ) - ![0.01, 0, -0.098] = ![0.000001, 0, 0] by ext i; fin_cases i <;> norm_num, x, abs_of_pos] <;> norm_num
      · simp only; rw [e, show (![1.00001e-3, 0, 0] : V3 ℝ) - ![1e-3, 0, 0] = ![1e-8, 0, 0] by ext i; fin_cases i <;> norm_num, x, abs_of_pos] <;> norm_num
      · refine this.2.trans ?_
        push_cast; ring
  have h0 := hm 100 0
  norm_num at h0
  have eh : hundred = (List.range 100).map fun (k : ℕ) => ⟨![1 / 100, 0, -(49 / 500)], ![1 / 1000, 0, 0], ![10001 / 1000000, 0, -(49 / 500)], ![100001 / 100000000, 0, 0], 10000 * ((k : Int) + 1)⟩ := by
    unfold hundred; norm_num
  rw [← eh] at h0
  have h1 : Measured 1e-4 1e-6 0 hundred := by norm_num; exact h0.1
  refine ⟨h1, measured_cruise hundred sx h1 (by rw [h0.2]) ?_, h0.2⟩
  intro c hc
  obtain ⟨k, -, rfl⟩ := List.mem_map.1 hc
  simp only
  rw [x, abs_of_pos (by norm_num)]
  norm_num

end NavFuse.Props
