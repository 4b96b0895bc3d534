import Verif.Dbl
import Verif.Lemmas.StrapdownEval
import Verif.Lemmas.RoundTiny

/-! # Absence of overflow with coarse bounds

`Bd X x k`: the double `X` is finite and has the value of `x`, which is at most 2ᵏ in absolute value. -/

namespace NavFuse
open Matrix Spec NavUtils Strapdown
variable [Machine] {r : ℝ → ℝ}

/-- finite, with the value of `x`, at most 2ᵏ -/
structure Bd (X : Dbl r) (x : Rnd r) (k : ℕ) : Prop where
  sim : Dbl.Sim X x
  le : |x.val| ≤ (2 : ℝ) ^ k

namespace Bd
variable {X Y : Dbl r} {x y : Rnd r} {k l : ℕ}

omit [Machine] in
theorem pow600 {k : ℕ} {v : ℝ} (h : |v| ≤ (2 : ℝ) ^ k) (hk : k ≤ 600) : |v| ≤ 1e200 := by
  have h2 : (2 : ℝ) ^ k ≤ 2 ^ 600 := pow_le_pow_right₀ (by norm_num) hk
  have h3 : (2 : ℝ) ^ 600 = (2 ^ 3) ^ 200 := by rw [← pow_mul]
  have h4 : ((2 : ℝ) ^ 3) ^ 200 ≤ 10 ^ 200 := pow_le_pow_left₀ (by norm_num) (by norm_num) 200
  have h5 : (1e200 : ℝ) = 10 ^ 200 := by norm_num
  rw [h5]
  exact h.trans (h2.trans (h3.le.trans h4))

omit [Machine] in
theorem round (h : Rounds53 r) {v : ℝ} {k : ℕ} (hv : |v| ≤ (2 : ℝ) ^ k) : |r v| ≤ (2 : ℝ) ^ k := by
  have := h.pow_le (k := k) (by omega) (by exact_mod_cast hv)
  exact_mod_cast this

omit [Machine] in
theorem mono (a : Bd X x k) (h : k ≤ l) : Bd X x l := ⟨a.sim, a.le.trans (pow_le_pow_right₀ (by norm_num) h)⟩

omit [Machine] in
theorem neg (a : Bd X x k) : Bd (-X) (-x) k := ⟨a.sim.neg, by show |-x.val| ≤ _; rw [abs_neg]; exact a.le⟩

omit [Machine] in
theorem add (h : Rounds53 r) (a : Bd X x k) (b : Bd Y y k) (hk : k + 1 ≤ 600 := by norm_num) : Bd (X + Y) (x + y) (k + 1) := by
  have e : |(x + y).val| ≤ (2 : ℝ) ^ (k + 1) := round h ((abs_add_le _ _).trans (by rw [pow_succ]; linarith [a.le, b.le]))
  exact ⟨a.sim.add b.sim (pow600 e hk), e⟩

omit [Machine] in
theorem sub (h : Rounds53 r) (a : Bd X x k) (b : Bd Y y k) (hk : k + 1 ≤ 600 := by norm_num) : Bd (X - Y) (x - y) (k + 1) := by
  have e : |(x - y).val| ≤ (2 : ℝ) ^ (k + 1) := round h ((abs_sub _ _).trans (by rw [pow_succ]; linarith [a.le, b.le]))
  exact ⟨a.sim.sub b.sim (pow600 e hk), e⟩

omit [Machine] in
theorem mul (h : Rounds53 r) (a : Bd X x k) (b : Bd Y y l) (hk : k + l ≤ 600 := by norm_num) : Bd (X * Y) (x * y) (k + l) := by
  have e : |(x * y).val| ≤ (2 : ℝ) ^ (k + l) := round h (by
    rw [abs_mul, pow_add]; exact mul_le_mul a.le b.le (abs_nonneg _) (by positivity))
  exact ⟨a.sim.mul b.sim (pow600 e hk), e⟩

omit [Machine] in
theorem div (h : Rounds53 r) (a : Bd X x k) (b : Dbl.Sim Y y) (hy : ((2 : ℝ) ^ l)⁻¹ ≤ y.val) (hk : k + l ≤ 600 := by norm_num) :
    Bd (X / Y) (x / y) (k + l) := by
  have hp : (0 : ℝ) < ((2 : ℝ) ^ l)⁻¹ := by positivity
  have h0 : 0 < y.val := hp.trans_le hy
  have e : |(x / y).val| ≤ (2 : ℝ) ^ (k + l) := round h (by
    rw [abs_div, abs_of_pos h0, div_le_iff₀ h0, pow_add]
    have h1 : (1 : ℝ) ≤ (2 : ℝ) ^ l * y.val := by rw [inv_le_iff_one_le_mul₀ (by positivity)] at hy; linarith
    have h2 : (0 : ℝ) ≤ (2 : ℝ) ^ k := by positivity
    nlinarith [a.le])
  exact ⟨a.sim.div b h0.ne' (pow600 e hk), e⟩

theorem zero (h : Rounds53 r) (k : ℕ) : Bd (Flt.lit 0 : Dbl r) (Flt.lit 0) k := by
  have e : |(Flt.lit 0 : Rnd r).val| ≤ (2 : ℝ) ^ k := round h (by simp)
  have e0 : |(Flt.lit 0 : Rnd r).val| ≤ (2 : ℝ) ^ 0 := round h (by simp)
  exact ⟨.lit 0 (pow600 e0 (by norm_num)), e⟩

theorem one (h : Rounds53 r) : Bd (Flt.lit 1 : Dbl r) (Flt.lit 1) 0 := by
  have e : |(Flt.lit 1 : Rnd r).val| ≤ (2 : ℝ) ^ 0 := round h (by simp)
  exact ⟨.lit 1 (pow600 e (by norm_num)), e⟩

theorem sin (_h : Rounds53 r) (a : Dbl.Sim X x) : Bd (Flt.sin X) (Flt.sin x) 0 := by
  have e : |(Flt.sin x).val| ≤ (2 : ℝ) ^ 0 := round (Machine.faithful .sin _ _) (by simpa using Real.abs_sin_le_one x.val)
  exact ⟨a.sin (pow600 e (by norm_num)), e⟩

theorem cos (_h : Rounds53 r) (a : Dbl.Sim X x) : Bd (Flt.cos X) (Flt.cos x) 0 := by
  have e : |(Flt.cos x).val| ≤ (2 : ℝ) ^ 0 := round (Machine.faithful .cos _ _) (by simpa using Real.abs_cos_le_one x.val)
  exact ⟨a.cos (pow600 e (by norm_num)), e⟩

theorem sqrt (h : Rounds53 r) (a : Bd X x (2 * k)) (h0 : 0 ≤ x.val) (hk : k ≤ 600 := by norm_num) : Bd (Flt.sqrt X) (Flt.sqrt x) k := by
  have e : |(Flt.sqrt x).val| ≤ (2 : ℝ) ^ k := round h (by
    rw [abs_of_nonneg (Real.sqrt_nonneg _)]
    refine Real.sqrt_le_iff.2 ⟨by positivity, ?_⟩
    rw [← pow_mul, mul_comm k 2]; exact (le_abs_self _).trans a.le)
  exact ⟨a.sim.sqrt h0 (pow600 e hk), e⟩

theorem fsum3 (h : Rounds53 r) {F : Fin 3 → Dbl r} {f : Fin 3 → Rnd r} (a : ∀ i, Bd (F i) (f i) k) (hk : k + 3 ≤ 600 := by norm_num) :
    Bd (fsum F) (fsum f) (k + 3) := by
  rw [Dbl.fsum3, Rnd.fsum3']
  exact (add h (add h (a _) (a _) (by omega)) ((a _).mono (by omega)) (by omega)).mono (by omega)

/-- entries of matrices -/
theorem mmul (h : Rounds53 r) {F G : M3 (Dbl r)} {f g : M3 (Rnd r)} (a : ∀ i j, Bd (F i j) (f i j) k) (b : ∀ i j, Bd (G i j) (g i j) l)
    (hk : k + l + 3 ≤ 600 := by norm_num) (i j : Fin 3) : Bd (mmul F G i j) (mmul f g i j) (k + l + 3) :=
  fsum3 h (fun m => mul h (a i m) (b m j) (by omega)) hk

theorem mvec (h : Rounds53 r) {F : M3 (Dbl r)} {f : M3 (Rnd r)} {V : V3 (Dbl r)} {v : V3 (Rnd r)} (a : ∀ i j, Bd (F i j) (f i j) k)
    (b : ∀ j, Bd (V j) (v j) l) (hk : k + l + 3 ≤ 600 := by norm_num) (i : Fin 3) : Bd (mvec F V i) (mvec f v i) (k + l + 3) :=
  fsum3 h (fun m => mul h (a i m) (b m) (by omega)) hk

end Bd

/-- finite doubles with the given values -/
def dblV {n : ℕ} (v : Fin n → Rnd r) : Fin n → Dbl r := fun i => .fin (v i).val
/-- a matrix of finite doubles with the given values -/
def dblM {n m : ℕ} (A : Matrix (Fin n) (Fin m) (Rnd r)) : Matrix (Fin n) (Fin m) (Dbl r) := of fun i j => .fin (A i j).val

omit [Machine] in
/-- a product and a quotient of large numbers -/
theorem Dbl.Sim.mul_big {X Y : Dbl r} {x y : Rnd r} (a : Dbl.Sim X x) (b : Dbl.Sim Y y) (h : |(x * y).val| < 2 ^ 1024) : Dbl.Sim (X * Y) (x * y) := by
  rw [a, b]; exact Dbl.rd_fin h

omit [Machine] in
theorem Dbl.Sim.div_big {X Y : Dbl r} {x y : Rnd r} (a : Dbl.Sim X x) (b : Dbl.Sim Y y) (h0 : y.val ≠ 0) (h : |(x / y).val| < 2 ^ 1024) :
    Dbl.Sim (X / Y) (x / y) := by
  rw [a, b]
  show Dbl.rd r (XR.fin x.val / XR.fin y.val) = _
  rw [XR.fin_div _ _ h0]; exact Dbl.rd_fin h

theorem sk_dbl (h : Rounds53 r) (φ : V3 (Rnd r)) {k : ℕ} (hφ : ∀ i, Bd (dblV φ i) (φ i) k) (i j : Fin 3) :
    Bd ((skewSymmetric (dblV φ)).2 i j) ((skewSymmetric φ).2 i j) k := by
  have z := Bd.zero h k
  fin_cases i <;> fin_cases j
  exacts [z, (hφ 2).neg, hφ 1, hφ 2, z, (hφ 0).neg, (hφ 1).neg, hφ 0, z]

theorem vnorm_dbl (h : Rounds53 r) (φ : V3 (Rnd r)) (h4 : len3 (valV φ) ≤ 4) : Bd (vnorm (dblV φ)) (vnorm φ) 4 := by
  have hφ : ∀ i, Bd (dblV φ i) (φ i) 2 := fun i => ⟨rfl, ((le_len3 (valV φ) i).trans h4).trans (by norm_num)⟩
  have hsq : Bd (vsqNorm (dblV φ)) (vsqNorm φ) (2 * 4) := (Bd.fsum3 h fun i => Bd.mul h (hφ i) (hφ i)).mono (by norm_num)
  have hpos : 0 ≤ (vsqNorm φ).val := by
    show 0 ≤ (fsum fun i => φ i * φ i : Rnd r).val
    rw [Rnd.fsum3]
    have hs : ∀ i, 0 ≤ (φ i * φ i).val := fun i => h.nonneg (mul_self_nonneg _)
    exact h.nonneg (add_nonneg (h.nonneg (add_nonneg (hs _) (hs _))) (hs _))
  exact Bd.sqrt h hsq hpos

theorem mid_dbl (h : Rounds53 r) (i j : Fin 3) (k : ℕ) : Bd ((mid : M3 (Dbl r)) i j) ((mid : M3 (Rnd r)) i j) k := by
  show Bd (if i = j then _ else _) (if i = j then _ else _) k
  by_cases hij : i = j
  · rw [if_pos hij, if_pos hij]; exact (Bd.one h).mono (by norm_num)
  · rw [if_neg hij, if_neg hij]; exact Bd.zero h k

omit [Machine] in
theorem pow1021 : (2 : ℝ) ^ (1021 : ℤ) < 2 ^ 1024 := by
  have : (2 : ℝ) ^ (1021 : ℤ) = 2 ^ 1021 := zpow_ofNat 2 1021
  rw [this]; exact pow_lt_pow_right₀ (by norm_num) (by norm_num)

/-- the increment of the attitude matrix for very small angles -/
theorem attInc_tiny_dbl (h : Rounds53 r) (φ : V3 (Rnd r)) (T : TinyAngle φ) (h4 : len3 (valV φ) ≤ 4) (i j : Fin 3) :
    Bd (attInc (dblV φ) i j) (attInc φ i j) 145 := by
  have hφ : ∀ i, Bd (dblV φ i) (φ i) 0 := fun i => ⟨rfl, (T.comp i).trans (by norm_num)⟩
  have hX := sk_dbl h φ hφ
  have hn := vnorm_dbl h φ h4
  have hnn := Bd.mul h hn hn
  have hd := Bd.sub h (Bd.one h) (Bd.cos h hn.sim)
  have hm0 : (vnorm φ).val ≠ 0 := (lt_of_lt_of_le (by positivity) T.m_pos).ne'
  have hmm0 : (vnorm φ * vnorm φ).val ≠ 0 := (tau_pos.trans_le T.mm_pos).ne'
  have hb := pow1021
  have c1 : Bd (Flt.sin (vnorm (dblV φ)) / vnorm (dblV φ)) (Flt.sin (vnorm φ) / vnorm φ) 1 := by
    have e : |(Flt.sin (vnorm φ) / vnorm φ).val| ≤ (2 : ℝ) ^ 1 := by rw [abs_of_nonneg T.a0, pow_one]; exact T.a2
    exact ⟨(Bd.sin h hn.sim).sim.div hn.sim hm0 (Bd.pow600 e (by norm_num)), e⟩
  have c2 : Dbl.Sim ((Flt.lit 1 - Flt.cos (vnorm (dblV φ))) / (vnorm (dblV φ) * vnorm (dblV φ))) ((Flt.lit 1 - Flt.cos (vnorm φ)) / (vnorm φ * vnorm φ)) :=
    hd.sim.div_big hnn.sim hmm0 (by rw [abs_of_nonneg T.b0]; exact T.b1.trans_lt hb)
  have c3 : ∀ i l, Dbl.Sim (msmul ((Flt.lit 1 - Flt.cos (vnorm (dblV φ))) / (vnorm (dblV φ) * vnorm (dblV φ))) (skewSymmetric (dblV φ)).2 i l)
      (msmul ((Flt.lit 1 - Flt.cos (vnorm φ)) / (vnorm φ * vnorm φ)) (skewSymmetric φ).2 i l) := fun i l => by
    refine c2.mul_big (hX i l).sim (lt_of_le_of_lt (h.pow_le (k := 1021) (by norm_num) ?_) hb)
    rw [abs_mul, abs_of_nonneg T.b0]
    have := (hX i l).le
    calc _ ≤ (2 : ℝ) ^ (1021 : ℤ) * 1 := mul_le_mul T.b1 (by simpa using this) (abs_nonneg _) (by positivity)
      _ = _ := mul_one _
  have b1 : Bd (msmul (Flt.sin (vnorm (dblV φ)) / vnorm (dblV φ)) (skewSymmetric (dblV φ)).2 i j) (msmul (Flt.sin (vnorm φ) / vnorm φ) (skewSymmetric φ).2 i j) 1 :=
    Bd.mul h c1 (hX i j)
  have tl : ∀ l, Bd (msmul ((Flt.lit 1 - Flt.cos (vnorm (dblV φ))) / (vnorm (dblV φ) * vnorm (dblV φ))) (skewSymmetric (dblV φ)).2 i l * (skewSymmetric (dblV φ)).2 l j)
      (msmul ((Flt.lit 1 - Flt.cos (vnorm φ)) / (vnorm φ * vnorm φ)) (skewSymmetric φ).2 i l * (skewSymmetric φ).2 l j) 0 := fun l => by
    have hu : 53 / 10 * ulp ≤ (2 : ℝ) ^ 0 := by rw [ulp]; norm_num
    have t := (tiny_term h φ T i l j).trans hu
    exact ⟨(c3 i l).mul (hX l j).sim (Bd.pow600 t (by norm_num)), t⟩
  have b2 := Bd.fsum3 h tl
  have b3 := Bd.add h (mid_dbl h i j 1) b1
  exact (Bd.add h (b3.mono (l := 3) (by norm_num)) b2).mono (by norm_num)

/-- the increment of the attitude matrix in double precision does not overflow -/
theorem attInc_dbl_normal (h : Rounds53 r) (φ : V3 (Rnd r)) (h0 : 1e-20 ≤ len3 (valV φ)) (h4 : len3 (valV φ) ≤ 4) (i j : Fin 3) :
    Bd (attInc (dblV φ) i j) (attInc φ i j) 145 := by
  have hφ : ∀ i, Bd (dblV φ i) (φ i) 2 := fun i => ⟨rfl, ((le_len3 (valV φ) i).trans h4).trans (by norm_num)⟩
  have hn := vnorm_dbl h φ h4
  have hlow : ((2 : ℝ) ^ 68)⁻¹ ≤ (vnorm φ).val := by
    have e := vnorm_rnd h φ h0
    have hu := ulp_le
    have e1 := (abs_le.1 e).1
    have h2 : 12 * len3 (valV φ) * ulp ≤ len3 (valV φ) / 10 := by nlinarith
    have h3 : ((2 : ℝ) ^ 68)⁻¹ ≤ 1e-20 * (9 / 10) := by norm_num
    linarith
  have hnn := Bd.mul h hn hn
  have hlow2 : ((2 : ℝ) ^ 136)⁻¹ ≤ (vnorm φ * vnorm φ).val := by
    have h1 : (2 : ℝ) ^ (-136 : ℤ) ≤ (vnorm φ).val * (vnorm φ).val := by
      have e : (2 : ℝ) ^ (-136 : ℤ) = ((2 : ℝ) ^ 68)⁻¹ * ((2 : ℝ) ^ 68)⁻¹ := by norm_num
      rw [e]
      exact mul_le_mul hlow hlow (by positivity) ((by positivity : (0 : ℝ) ≤ ((2 : ℝ) ^ 68)⁻¹).trans hlow)
    have h2 := h.le_pow (by norm_num) h1
    have e : (2 : ℝ) ^ (-136 : ℤ) = ((2 : ℝ) ^ 136)⁻¹ := by norm_num
    rw [e] at h2
    exact h2
  have hX := sk_dbl h φ hφ
  have c1 := Bd.div h (Bd.sin h hn.sim) hn.sim hlow
  have c2 := Bd.div h (Bd.sub h (Bd.one h) (Bd.cos h hn.sim)) hnn.sim hlow2
  have hid := mid_dbl h i j 70
  have b1 : Bd (msmul (Flt.sin (vnorm (dblV φ)) / vnorm (dblV φ)) (skewSymmetric (dblV φ)).2 i j) (msmul (Flt.sin (vnorm φ) / vnorm φ) (skewSymmetric φ).2 i j) 70 :=
    Bd.mul h c1 (hX i j)
  have b2 := Bd.mmul h (fun i j => (Bd.mul h c2 (hX i j) : Bd (msmul ((Flt.lit 1 - Flt.cos (vnorm (dblV φ))) / (vnorm (dblV φ) * vnorm (dblV φ))) (skewSymmetric (dblV φ)).2 i j)
    (msmul ((Flt.lit 1 - Flt.cos (vnorm φ)) / (vnorm φ * vnorm φ)) (skewSymmetric φ).2 i j) _)) hX (by norm_num) i j
  have b3 := Bd.add h hid b1
  exact (Bd.add h (b3.mono (l := 144) (by norm_num)) (b2.mono (by norm_num))).mono (by norm_num)

theorem attInc_dbl (h : Rounds53 r) (φ : V3 (Rnd r)) (hm : tau ≤ (vsqNorm φ).val) (h4 : len3 (valV φ) ≤ 4) (i j : Fin 3) :
    Bd (attInc (dblV φ) i j) (attInc φ i j) 145 := by
  rcases le_total (1e-20) (len3 (valV φ)) with hp | hp
  · exact attInc_dbl_normal h φ hp h4 i j
  · exact attInc_tiny_dbl h φ (tinyAngle h φ hm hp) h4 i j

/-- the product of an attitude matrix and an increment does not overflow -/
theorem mmul_attInc_dbl (h : Rounds53 r) (A : M3 (Rnd r)) (hA : ∀ i, len3 (valM A i) ≤ 11 / 10) (φ : V3 (Rnd r)) (h0 : tau ≤ (vsqNorm φ).val)
    (h4 : len3 (valV φ) ≤ 4) : mmul (dblM A) (attInc (dblV φ)) = dblM (mmul A (attInc φ)) := by
  have a : ∀ i j, Bd (dblM A i j) (A i j) 1 := fun i j => ⟨rfl, ((le_len3 (valM A i) j).trans (hA i)).trans (by norm_num)⟩
  funext i j
  exact (Bd.mmul h a (attInc_dbl h φ h0 h4) (by norm_num) i j).sim

/-- the direction cosine matrix of Euler angles is finite -/
theorem euler_dbl (h : Rounds53 r) (e : V3 (Rnd r)) : (Attitude.euler2Dcm (dblV e)).2 = dblM (Attitude.euler2Dcm e).2 := by
  have s : ∀ i, Bd (Flt.sin (dblV e i)) (Flt.sin (e i)) 0 := fun i => .sin h rfl
  have c : ∀ i, Bd (Flt.cos (dblV e i)) (Flt.cos (e i)) 0 := fun i => .cos h rfl
  have z := Bd.zero h 0
  have o := Bd.one h
  have R3 : ∀ i j, Bd ((!![Flt.cos (dblV e 2), Flt.sin (dblV e 2), Flt.lit 0; -Flt.sin (dblV e 2), Flt.cos (dblV e 2), Flt.lit 0; Flt.lit 0, Flt.lit 0, Flt.lit 1] : M3 (Dbl r)) i j)
      ((!![Flt.cos (e 2), Flt.sin (e 2), Flt.lit 0; -Flt.sin (e 2), Flt.cos (e 2), Flt.lit 0; Flt.lit 0, Flt.lit 0, Flt.lit 1] : M3 (Rnd r)) i j) 0 := by
    intro i j
    fin_cases i <;> fin_cases j
    exacts [c 2, s 2, z, (s 2).neg, c 2, z, z, z, o]
  have R2 : ∀ i j, Bd ((!![Flt.cos (dblV e 1), Flt.lit 0, -Flt.sin (dblV e 1); Flt.lit 0, Flt.lit 1, Flt.lit 0; Flt.sin (dblV e 1), Flt.lit 0, Flt.cos (dblV e 1)] : M3 (Dbl r)) i j)
      ((!![Flt.cos (e 1), Flt.lit 0, -Flt.sin (e 1); Flt.lit 0, Flt.lit 1, Flt.lit 0; Flt.sin (e 1), Flt.lit 0, Flt.cos (e 1)] : M3 (Rnd r)) i j) 0 := by
    intro i j
    fin_cases i <;> fin_cases j
    exacts [c 1, z, (s 1).neg, z, o, z, s 1, z, c 1]
  have R1 : ∀ i j, Bd ((!![Flt.lit 1, Flt.lit 0, Flt.lit 0; Flt.lit 0, Flt.cos (dblV e 0), Flt.sin (dblV e 0); Flt.lit 0, -Flt.sin (dblV e 0), Flt.cos (dblV e 0)] : M3 (Dbl r)) i j)
      ((!![Flt.lit 1, Flt.lit 0, Flt.lit 0; Flt.lit 0, Flt.cos (e 0), Flt.sin (e 0); Flt.lit 0, -Flt.sin (e 0), Flt.cos (e 0)] : M3 (Rnd r)) i j) 0 := by
    intro i j
    fin_cases i <;> fin_cases j
    exacts [o, z, z, z, c 0, s 0, z, (s 0).neg, c 0]
  funext i j
  exact (Bd.mmul h (Bd.mmul h R1 R2) R3 (by norm_num) i j).sim

end NavFuse
