import Verif.Lemmas.RoundQuat
import Verif.Props.KalmanDbl
import Mathlib.Analysis.Real.Pi.Bounds

/-! # C137: quaternions and rotation matrices in double precision

A matrix of doubles is never exactly a rotation, and a quaternion of doubles never exactly of unit length. -/

namespace NavFuse.Props
open Matrix Quaternion NavFuse.Spec NavFuse.Attitude
variable [Machine] {r : ℝ → ℝ}

/-- `B` turns vectors as the quaternion `q` does: `v ↦ q⁻¹ v q` -/
def Turns (q : Fin 4 → ℝ) (B : M3 ℝ) : Prop := ∀ v, pureQ (B *ᵥ v) = (toQ q)⁻¹ * pureQ v * toQ q

/-- the `k`-th component of `p` is the largest, by the margin `m` in the squares -/
def Largest (p : Fin 4 → ℝ) (k : Fin 4) (m : ℝ) : Prop := ∀ i, i ≠ k → p i ^ 2 + m ≤ p k ^ 2

omit [Machine] in
theorem dcm_turns {q : Fin 4 → ℝ} (hq : q ≠ 0) : Turns q (dcmG q) := by
  obtain ⟨R', h3, -, h5⟩ := C28_dcm_is_rotation q hq 0
  rw [dcm_eval] at h3
  simp at h3
  rw [h3]; exact h5

omit [Machine] in
theorem turns_unique {q : Fin 4 → ℝ} {B C : M3 ℝ} (hB : Turns q B) (hC : Turns q C) : B = C := by
  refine Matrix.ext fun i j => ?_
  have e : pureQ (B *ᵥ Pi.single j 1) = pureQ (C *ᵥ Pi.single j 1) := (hB _).trans (hC _).symm
  have e' : ∀ v w : Fin 3 → ℝ, pureQ v = pureQ w → v = w := by
    intro v w h
    rw [Quaternion.ext_iff] at h
    obtain ⟨-, h1, h2, h3⟩ := h
    simp [pureQ] at h1 h2 h3
    ext i; fin_cases i <;> simpa
  have := congrFun (e' _ _ e) i
  simpa using this

omit [Machine] in
theorem prodM_dcm {p : Fin 4 → ℝ} (hp : sq4 p = 1) (i j : Fin 4) : prodM (dcmG p) i j = 4 * (p i * p j) := by
  rw [dcmR, hp]
  simp only [sq4] at hp
  fin_cases i <;> fin_cases j <;> simp [prodM] <;> nlinarith

omit [Machine] in
theorem sq4_ne {p : Fin 4 → ℝ} (hp : 0 < sq4 p) : p ≠ 0 := by rintro rfl; simp [sq4] at hp

omit [Machine] in
theorem comp_le {p : Fin 4 → ℝ} (h : sq4 p ≤ 1.1) (i : Fin 4) : |p i| ≤ 1.05 := by
  refine abs_le_of_sq_le_sq' ?_ (by norm_num) |> abs_le.2
  have h0 := sq_nonneg (p 0); have h1 := sq_nonneg (p 1); have h3 := sq_nonneg (p 2); have h4 := sq_nonneg (p 3)
  simp only [sq4] at h
  norm_num at h ⊢
  fin_cases i <;> simp only [Fin.zero_eta, Fin.mk_one, Fin.reduceFinMk] <;> linarith

/-- C137, quaternion to matrix. Every quaternion of doubles whose squared length is between 0.9 and 1.1 is converted, with success and without overflow or
NaN, into a matrix whose entries are within 10⁻¹⁴ of the exact rotation by that quaternion. -/
theorem C137_dcm (h : Rounds53 r) (q : Fin 4 → ℝ) (h1 : 0.9 ≤ sq4 q) (h2 : sq4 q ≤ 1.1) (R0 : M3 (Dbl r)) :
    ∃ R B : M3 ℝ, computeDcmFromQuaternion ⟨4, fun i => .fin (q i)⟩ ⟨3, 3, R0⟩ = .ok (true, ⟨3, 3, dM R⟩)
      ∧ IsRot B ∧ Turns q B ∧ ∀ i j, |R i j - B i j| ≤ 1e-14 := by
  have hne := sq4_ne (show 0 < sq4 q by linarith)
  have hM : ∀ i, |q i| ≤ 1.05 := comp_le h2
  have a := dcm_ap h (Q := fun i => Dbl.fin (q i)) (q := fun i => ⟨q i⟩) (p := q) (fun i => Aj.exact ⟨q i⟩ (hM i)) h1 h2
  refine ⟨fun i j => (dcmG (fun i => (⟨q i⟩ : Rnd r)) i j).val, dcmG q, ?_, dcm_isRot hne, dcm_turns hne, fun i j => (a i j).err.trans (by norm_num)⟩
  rw [dcm_eval]
  congr 3
  ext i j
  exact (a i j).sim

/-- a unit quaternion, and one that is a little too long -/
example : 0.9 ≤ sq4 (![0.6, 0, 0.8, 0] : Fin 4 → ℝ) ∧ sq4 (![0.6, 0.1, 0.8, 0] : Fin 4 → ℝ) ≤ 1.1 := by simp [sq4]; norm_num

/-- C137, matrix to quaternion. (Full claim: for every rotation; missing: those where the two largest squared components are closer than 2·10⁻¹⁴.) A matrix
whose entries are within 10⁻¹⁴ of the rotation by a unit quaternion is converted, with success and without overflow or NaN, into that quaternion or its
negative within 1.6·10⁻¹³. -/
theorem C137_quaternion_partial (h : Rounds53 r) (p : Fin 4 → ℝ) (hp : sq4 p = 1) (k : Fin 4) (hk : Largest p k 2e-14) (B R : M3 ℝ) (hB : Turns p B)
    (hR : ∀ i j, |R i j - B i j| ≤ 1e-14) (q0 : Fin 4 → Dbl r) :
    ∃ q : Fin 4 → ℝ, computeQuaternionFromDcm ⟨3, 3, dM R⟩ ⟨4, q0⟩ = .ok (true, ⟨4, fun i => .fin (q i)⟩)
      ∧ ((∀ i, |q i - p i| ≤ 1.6e-13) ∨ ∀ i, |q i - -p i| ≤ 1.6e-13) := by
  have hne := sq4_ne (show 0 < sq4 p by rw [hp]; norm_num)
  obtain rfl := turns_unique hB (dcm_turns hne)
  have rot := dcm_isRot hne
  have hc : Clear (dcmG p) k := fun i hi => by
    rw [prodM_dcm hp, prodM_dcm hp]; have := hk i hi; linarith
  obtain ⟨q, hq⟩ := quat_ap h (R' := dM R) (R := of fun i j => ⟨R i j⟩) (fun i j => ⟨rfl, hR i j, rot.entry_le i j⟩) rot hc
  refine ⟨fun i => (q i).val, ?_, ?_⟩
  · rw [quat_eval]
    congr 3
    funext i
    exact (hq i).sim
  · have low := hc.low
    rw [prodM_dcm hp] at low
    have hpk : p k ≠ 0 := by intro h0; rw [h0] at low; norm_num at low
    have e : ∀ i, quatK (dcmG p) k i = p k * p i / |p k| := by
      intro i
      rw [quatK, prodM_dcm hp, prodM_dcm hp, show 4 * (p k * p k) / 4 = p k ^ 2 by ring, Real.sqrt_sq_eq_abs]
      have := abs_pos.2 hpk
      field_simp
    rcases lt_or_gt_of_ne hpk with h0 | h0
    · right; intro i
      have := (hq i).err
      rwa [e, abs_of_neg h0, show p k * p i / -p k = -p i by field_simp] at this
    · left; intro i
      have := (hq i).err
      rwa [e, abs_of_pos h0, show p k * p i / p k = p i by field_simp] at this

/-- the unit quaternion (0.6, 0, 0.8, 0): the third component is the largest by 0.28 -/
example : sq4 (![0.6, 0, 0.8, 0] : Fin 4 → ℝ) = 1 ∧ Largest ![0.6, 0, 0.8, 0] 2 2e-14 := by
  refine ⟨by simp [sq4]; norm_num, fun i hi => ?_⟩
  fin_cases i <;> simp_all <;> norm_num

/-- C137, there and back. A quaternion of doubles (nearly of unit length, with a largest component) comes back from its matrix normalised, up to sign. -/
theorem C137_round_trip_partial (h : Rounds53 r) (q : Fin 4 → ℝ) (h1 : 0.9 ≤ sq4 q) (h2 : sq4 q ≤ 1.1) (k : Fin 4) (hk : Largest q k 2.2e-14)
    (R0 : M3 (Dbl r)) (q0 : Fin 4 → Dbl r) :
    ∃ (R : M3 ℝ) (q' : Fin 4 → ℝ), computeDcmFromQuaternion ⟨4, fun i => .fin (q i)⟩ ⟨3, 3, R0⟩ = .ok (true, ⟨3, 3, dM R⟩)
      ∧ computeQuaternionFromDcm ⟨3, 3, dM R⟩ ⟨4, q0⟩ = .ok (true, ⟨4, fun i => .fin (q' i)⟩)
      ∧ ((∀ i, |q' i - q i / Real.sqrt (sq4 q)| ≤ 1.6e-13) ∨ ∀ i, |q' i - -(q i / Real.sqrt (sq4 q))| ≤ 1.6e-13) := by
  obtain ⟨R, B, e1, -, hB, hR⟩ := C137_dcm h q h1 h2 R0
  have hpos : 0 < sq4 q := by linarith
  have hs := Real.sqrt_pos.2 hpos
  have hss := Real.sq_sqrt hpos.le
  have hne := sq4_ne hpos
  set p : Fin 4 → ℝ := fun i => q i / Real.sqrt (sq4 q) with hpdef
  have hp : sq4 p = 1 := by
    have : sq4 p = sq4 q / Real.sqrt (sq4 q) ^ 2 := by simp only [sq4, hpdef]; ring
    rw [this, hss, div_self hpos.ne']
  have hpq : p = (Real.sqrt (sq4 q))⁻¹ • q := by funext i; simp [hpdef, div_eq_inv_mul]
  have hd : dcmG p = dcmG q := by
    have := C28_direction_only q (Real.sqrt (sq4 q))⁻¹ (inv_ne_zero hs.ne') 0
    rw [← hpq, dcm_eval, dcm_eval] at this
    simpa using this
  have hBp : Turns p B := by
    rw [turns_unique hB (dcm_turns hne), ← hd]
    exact dcm_turns (sq4_ne (by rw [hp]; norm_num))
  have hkp : Largest p k 2e-14 := fun i hi => by
    have := hk i hi
    simp only [hpdef, div_pow, hss]
    rw [← sub_nonneg, ← sub_sub, ← sub_div, sub_nonneg, sub_nonneg.symm]
    have : 2e-14 ≤ (q k ^ 2 - q i ^ 2) / sq4 q := by
      rw [le_div_iff₀ hpos]; nlinarith
    linarith
  obtain ⟨q', e2, e3⟩ := C137_quaternion_partial h p hp k hkp B R hBp hR q0
  exact ⟨R, q', e1, e2, e3⟩

example : 0.9 ≤ sq4 (![0.1, -0.2, 0.3, 0.9] : Fin 4 → ℝ) ∧ sq4 (![0.1, -0.2, 0.3, 0.9] : Fin 4 → ℝ) ≤ 1.1 ∧ Largest ![0.1, -0.2, 0.3, 0.9] 3 2.2e-14 := by
  refine ⟨by simp [sq4]; norm_num, by simp [sq4]; norm_num, fun i hi => ?_⟩
  fin_cases i <;> simp_all <;> norm_num

/-- C137, back and there. A matrix within 10⁻¹⁴ of a rotation comes back from its quaternion within 3.1·10⁻¹² of that rotation. -/
theorem C137_matrix_trip_partial (h : Rounds53 r) (p : Fin 4 → ℝ) (hp : sq4 p = 1) (k : Fin 4) (hk : Largest p k 2e-14) (B R : M3 ℝ) (hB : Turns p B)
    (hR : ∀ i j, |R i j - B i j| ≤ 1e-14) (R0 : M3 (Dbl r)) (q0 : Fin 4 → Dbl r) :
    ∃ (q : Fin 4 → ℝ) (R' : M3 ℝ), computeQuaternionFromDcm ⟨3, 3, dM R⟩ ⟨4, q0⟩ = .ok (true, ⟨4, fun i => .fin (q i)⟩)
      ∧ computeDcmFromQuaternion ⟨4, fun i => .fin (q i)⟩ ⟨3, 3, R0⟩ = .ok (true, ⟨3, 3, dM R'⟩)
      ∧ ∀ i j, |R' i j - B i j| ≤ 3.1e-12 := by
  obtain ⟨q, e1, e2⟩ := C137_quaternion_partial h p hp k hk B R hB hR q0
  have hne := sq4_ne (show 0 < sq4 p by rw [hp]; norm_num)
  obtain ⟨p', hp', hd, hq⟩ : ∃ p', sq4 p' = 1 ∧ dcmG p' = B ∧ ∀ i, |q i - p' i| ≤ 1.6e-13 := by
    have hd := turns_unique (dcm_turns hne) hB
    rcases e2 with e2 | e2
    · exact ⟨p, hp, hd, e2⟩
    · refine ⟨(-1 : ℝ) • p, by simpa [sq4] using hp, ?_, fun i => by simpa using e2 i⟩
      have := C28_direction_only p (-1) (by norm_num) 0
      rw [dcm_eval, dcm_eval] at this
      rw [← hd]; simpa using this
  have hM : ∀ i, |p' i| ≤ 1.05 := comp_le (by rw [hp']; norm_num)
  have a := dcm_ap' h (Q := fun i => Dbl.fin (q i)) (q := fun i => ⟨q i⟩) (p := p') (fun i => ⟨rfl, (hq i).trans (by norm_num), hM i⟩) (by rw [hp']; norm_num) (by rw [hp']; norm_num)
  refine ⟨q, fun i j => (dcmG (fun i => (⟨q i⟩ : Rnd r)) i j).val, e1, ?_, fun i j => ?_⟩
  · rw [dcm_eval]
    congr 3
    ext i j
    exact (a i j).sim
  · rw [← hd]; exact (a i j).err.trans (by norm_num)

/-! ## Near quarter turns -/

omit [Machine] in
theorem subE {a b c : ℝ} (h : ieeeEven (a - b) = c) (hc : |c| ≤ 1e200) : (.fin a : E) - .fin b = .fin c := by
  show Dbl.rd ieeeEven (.fin a - .fin b) = _
  rw [XR.fin_sub, Dbl.rd_fin (by rw [h]; exact hc.trans_lt Dbl.big), h]
theorem litE' (q : ℚ) {c : ℝ} (h : ieeeEven q = c) (hc : |c| ≤ 1e200) : (Flt.lit q : E) = .fin c := by
  show Dbl.rd ieeeEven (.fin (q : ℝ)) = _
  rw [Dbl.rd_fin (by rw [h]; exact hc.trans_lt Dbl.big), h]

omit [Machine] in
/-- two plus less than half a unit in the last place is two -/
theorem two_absorbs {c : ℝ} (hc : |c| < 2 ^ (-53 : ℤ)) : ieeeEven (2 + c) = 2 := by
  obtain ⟨h1, h2⟩ := abs_lt.1 hc
  norm_num at h1 h2
  rcases lt_or_ge c 0 with h0 | h0
  · rw [even_eq (x := 2 + c) (2 ^ 53) (-52) (by norm_num) (by norm_num; linarith) (by norm_num; linarith) (by rw [abs_lt]; constructor <;> norm_num <;> linarith)]
    norm_num
  · rw [even_eq (x := 2 + c) (2 ^ 52) (-51) (by norm_num) (by norm_num; linarith) (by norm_num; linarith) (by rw [abs_lt]; constructor <;> norm_num <;> linarith)]
    norm_num

/-- C137 is false of the code: on every matrix of doubles that is a turn about the first axis with a cosine below 2⁻⁵³ in absolute value (so the exact
components are different, unlike in C29's quarter turn), `computeQuaternionFromDcm` computed in double precision, rounding to nearest, returns true and NaN. -/
theorem C137_near_quarter_turn_fails (c s : ℝ) (hcd : ieeeEven c = c) (hc : |c| < 2 ^ (-53 : ℤ)) (q0 : Fin 4 → E) :
    computeQuaternionFromDcm ⟨3, 3, dM !![1, 0, 0; 0, c, s; 0, -s, c]⟩ ⟨4, q0⟩ = .ok (true, ⟨4, fun _ => ⟨.nan⟩⟩) := by
  have z := ieeeEven_rounds.zero
  have hc1 : |c| ≤ 1e200 := hc.le.trans (by norm_num)
  have hcn : ieeeEven (-c) = -c := by
    obtain ⟨m, e, hm, he, hx⟩ := ieee_isDouble roundEven_int c
    have hx : c = m * (2 : ℝ) ^ e := hcd.symm.trans hx
    exact keepE (-m) e _ (by rw [hx]; push_cast; ring) (by rwa [abs_neg]) he
  have h2c := two_absorbs hc
  have h2c' : ieeeEven (2 - c) = 2 := by rw [sub_eq_add_neg]; exact two_absorbs (by rwa [abs_neg])
  have l1 : (Flt.lit 1 : E) = .fin 1 := litE' 1 (by rw [Rat.cast_one]; exact ieeeEven_rounds.one) (by norm_num)
  have l4 : (Flt.lit 4 : E) = .fin 4 := litE' 4 (keepE 4 0 _ (by norm_num) (by norm_num) (by norm_num) |>.trans (by norm_num)) (by norm_num)
  have lq : (Flt.lit 0.25 : E) = .fin 0.25 := litE' 0.25 (keepE 1 (-2) _ (by norm_num) (by norm_num) (by norm_num) |>.trans (by norm_num)) (by norm_num)
  have a11 : (.fin 1 : E) + .fin 1 = .fin 2 := addE (keepE 2 0 _ (by norm_num) (by norm_num) (by norm_num) |>.trans (by norm_num)) (by norm_num)
  have s11 : (.fin 1 : E) - .fin 1 = .fin 0 := subE (by rw [sub_self, z]) (by norm_num)
  have a2 : (.fin 2 : E) + .fin c = .fin 2 := addE h2c (by norm_num)
  have s2 : (.fin 2 : E) - .fin c = .fin 2 := subE h2c' (by norm_num)
  have a0 : (.fin 0 : E) + .fin c = .fin c := addE (by rw [zero_add, hcd]) hc1
  have s0 : (.fin 0 : E) - .fin c = .fin (-c) := subE (by rw [zero_sub, hcn]) (by rwa [abs_neg])
  have scc : (.fin c : E) - .fin c = .fin 0 := subE (by rw [sub_self, z]) (by norm_num)
  have acc : (.fin (-c) : E) + .fin c = .fin 0 := addE (by rw [neg_add_cancel, z]) (by norm_num)
  have ass : (.fin s : E) + .fin (-s) = .fin 0 := addE (by rw [add_neg_cancel, z]) (by norm_num)
  have a00 : (.fin 0 : E) + .fin 0 = .fin 0 := addE (by rw [add_zero, z]) (by norm_num)
  have s00 : (.fin 0 : E) - .fin 0 = .fin 0 := subE (by rw [sub_zero, z]) (by norm_num)
  have mh : (.fin 0.25 : E) * .fin 2 = .fin 0.5 := mulE (keepE 1 (-1) _ (by norm_num) (by norm_num) (by norm_num) |>.trans (by norm_num)) (by norm_num)
  have mz : (.fin 0.25 : E) * .fin 0 = .fin 0 := mulE (by rw [mul_zero, z]) (by norm_num)
  have m4 : (.fin 4 : E) * .fin 0 = .fin 0 := mulE (by rw [mul_zero, z]) (by norm_num)
  have sq0 : Flt.sqrt (.fin 0 : E) = .fin 0 := by
    show Dbl.rd ieeeEven (Flt.sqrt (.fin 0)) = _
    rw [XR.X_sqrt _ le_rfl, Real.sqrt_zero, Dbl.rd_fin] <;> rw [z]
    rw [abs_zero]; positivity
  have pw0 : Flt.powi (.fin 0 : E) 2 = .fin 0 := by
    have zp := (Machine.faithful .pow (0 : ℝ) (2 : ℕ)).zero
    show Dbl.lb (Machine.lib .pow (0 : ℝ) (2 : ℕ)) (.fin ((0 : ℝ) ^ 2)) = _
    rw [zero_pow (by norm_num), Dbl.lb_fin] <;> rw [zp]
    rw [abs_zero]; positivity
  have dv : (.fin 1 : E) / .fin 0 = ⟨.pinf⟩ := by
    show Dbl.rd ieeeEven (XR.fin 1 / XR.fin 0) = _
    rw [XR.pos_div_zero _ one_pos]; rfl
  have mn : (.fin 0 : E) * ⟨.pinf⟩ = ⟨.nan⟩ := by
    show Dbl.rd ieeeEven (XR.fin 0 * XR.pinf) = _
    simp [xsimp]; rfl
  have lh : Flt.lt (.fin 0.5 : E) (.fin 0.5) = false := decide_eq_false (lt_irrefl _)
  have lz : Flt.lt (.fin 0.5 : E) (.fin 0) = false := decide_eq_false (by norm_num)
  rw [quat_eval]
  congr 3
  funext i
  set D : M3 E := dM !![1, 0, 0; 0, c, s; 0, -s, c]
  have e00 : D 0 0 = .fin 1 := rfl
  have e01 : D 0 1 = .fin 0 := rfl
  have e02 : D 0 2 = .fin 0 := rfl
  have e10 : D 1 0 = .fin 0 := rfl
  have e11 : D 1 1 = .fin c := rfl
  have e12 : D 1 2 = .fin s := rfl
  have e20 : D 2 0 = .fin 0 := rfl
  have e21 : D 2 1 = .fin (-s) := rfl
  have e22 : D 2 2 = .fin c := rfl
  clear_value D
  simp only [quatG, e00, e01, e02, e10, e11, e12, e20, e21, e22, l1, l4, lq, a11, s11, a2, s2, a0, s0, scc, acc, ass, a00, s00, mh, mz, m4, sq0, pw0, dv, lh, lz,
    Bool.false_and, Bool.false_eq_true, if_false]
  fin_cases i <;> exact mn

/-- the cosine of the double nearest to a quarter turn -/
example : ∃ c : ℝ, ieeeEven c = c ∧ c ≠ 0 ∧ |c| < 2 ^ (-53 : ℤ) :=
  ⟨2 ^ (-54 : ℤ), keepE 1 (-54) _ (by norm_num) (by norm_num) (by norm_num), by positivity, by rw [abs_of_pos (by positivity)]; norm_num⟩

omit [Machine] in
theorem kept (x : ℝ) : ieeeEven (ieeeEven x) = ieeeEven x := by
  obtain ⟨m, e, hm, he, hx⟩ := ieee_isDouble roundEven_int x
  exact keepE m e _ hx hm he

theorem mmul_dM_one (A : M3 ℝ) (hA : ∀ i j, ieeeEven (A i j) = A i j ∧ |A i j| ≤ 1e200) : mmul (dM A : M3 E) (dM 1) = dM A := by
  have z := ieeeEven_rounds.zero
  have a0 : ∀ a : ℝ, ieeeEven a = a → |a| ≤ 1e200 → (.fin 0 : E) + .fin a = .fin a := fun a h h' => addE (by rw [zero_add, h]) h'
  have b0 : ∀ a : ℝ, ieeeEven a = a → |a| ≤ 1e200 → (.fin a : E) + .fin 0 = .fin a := fun a h h' => addE (by rw [add_zero, h]) h'
  have c0 : ∀ a : ℝ, (.fin a : E) * .fin 0 = .fin 0 := fun a => mulE (by rw [mul_zero, z]) (by norm_num)
  have d1 : ∀ a : ℝ, ieeeEven a = a → |a| ≤ 1e200 → (.fin a : E) * .fin 1 = .fin a := fun a h h' => mulE (by rw [mul_one, h]) h'
  have z0 : |(0 : ℝ)| ≤ 1e200 := by norm_num
  ext i j
  have f : (dM A : M3 E) i j = .fin (A i j) := rfl
  rw [f]
  have u : ∀ k l : Fin 3, (dM 1 : M3 E) k l = .fin (if k = l then 1 else 0) := fun k l => congrArg Dbl.fin Matrix.one_apply
  have v : ∀ k l : Fin 3, (dM A : M3 E) k l = .fin (A k l) := fun k l => rfl
  show fsum (fun l => dM A i l * dM 1 l j : Fin 3 → E) = _
  apply Dbl.fsum3_of <;> fin_cases j <;> simp [u, v, c0, d1 _ (hA i _).1 (hA i _).2, a0 _ (hA i _).1 (hA i _).2, b0 _ (hA i _).1 (hA i _).2, b0 0 z z0]

/-- the results of the library functions are doubles -/
def LibDoubles : Prop := ∀ f x y v, IsDouble (Machine.lib f x y v)

/-- C137 is false of the code, with matrices the library itself makes: for every roll angle within 10⁻¹⁶ of a quarter turn (such as the double `M_PI / 2`), zero
pitch and heading, `euler2Dcm` succeeds and the quaternion of its matrix is NaN, with success. -/
theorem C137_quarter_roll_fails (hl : LibDoubles) (x : ℝ) (hx : |x - Real.pi / 2| ≤ 1e-16) (q0 : Fin 4 → E) :
    (euler2Dcm (![.fin x, .fin 0, .fin 0] : V3 E)).1 = true
      ∧ computeQuaternionFromDcm ⟨3, 3, (euler2Dcm (![.fin x, .fin 0, .fin 0] : V3 E)).2⟩ ⟨4, q0⟩ = .ok (true, ⟨4, fun _ => ⟨.nan⟩⟩) := by
  refine ⟨rfl, ?_⟩
  have h := ieeeEven_rounds
  have l0 : (Flt.lit 0 : E) = .fin 0 := litE
  have l1 : (Flt.lit 1 : E) = .fin 1 := litE' 1 (by rw [Rat.cast_one]; exact h.one) (by norm_num)
  have small : ∀ (f : LibFn) (a b y : ℝ), |y| ≤ 1 → |Machine.lib f a b y| ≤ 1 := fun f a b y hy => by
    have := (Machine.faithful f a b).pow_le (k := 0) (by norm_num) (x := y) (by simpa using hy)
    simpa using this
  have double : ∀ (f : LibFn) (a b y : ℝ), ieeeEven (Machine.lib f a b y) = Machine.lib f a b y := fun f a b y => by
    obtain ⟨m, e, hm, he, hx⟩ := hl f a b y
    exact keepE m e _ hx hm he
  have huge : (1 : ℝ) < 2 ^ 1024 := one_lt_pow₀ (by norm_num) (by norm_num)
  have cosE : ∀ y : ℝ, Flt.cos (.fin y : E) = .fin (Machine.lib .cos y 0 (Real.cos y)) := fun y =>
    Dbl.lb_fin ((small _ _ _ _ (Real.abs_cos_le_one y)).trans_lt huge)
  have sinE : ∀ y : ℝ, Flt.sin (.fin y : E) = .fin (Machine.lib .sin y 0 (Real.sin y)) := fun y =>
    Dbl.lb_fin ((small _ _ _ _ (Real.abs_sin_le_one y)).trans_lt huge)
  have ng : ∀ y : ℝ, -(.fin y : E) = .fin (-y) := fun y => rfl
  set c := Machine.lib .cos x 0 (Real.cos x) with hc
  set s := Machine.lib .sin x 0 (Real.sin x) with hs
  have cc : ieeeEven c = c := double _ _ _ _
  have ss : ieeeEven s = s := double _ _ _ _
  have one : ∀ f a b, Machine.lib f a b 1 = 1 := fun f a b => (Machine.faithful f a b).one
  have zero : ∀ f a b, Machine.lib f a b 0 = 0 := fun f a b => (Machine.faithful f a b).zero
  have sn : ieeeEven (-s) = -s := by
    obtain ⟨m, e, hm, he, hx⟩ := ieee_isDouble roundEven_int s
    have hx : s = m * (2 : ℝ) ^ e := ss.symm.trans hx
    exact keepE (-m) e _ (by rw [hx]; push_cast; ring) (by rwa [abs_neg]) he
  have c1 : |c| ≤ 1 := small _ _ _ _ (Real.abs_cos_le_one x)
  have s1 : |s| ≤ 1 := small _ _ _ _ (Real.abs_sin_le_one x)
  have key : (euler2Dcm (![.fin x, .fin 0, .fin 0] : V3 E)).2 = dM !![1, 0, 0; 0, c, s; 0, -s, c] := by
    have e3 : (!![Flt.cos (.fin 0), Flt.sin (.fin 0), Flt.lit 0; -Flt.sin (.fin 0), Flt.cos (.fin 0), Flt.lit 0; Flt.lit 0, Flt.lit 0, Flt.lit 1] : M3 E) = dM 1 := by
      ext i j
      fin_cases i <;> fin_cases j <;> simp [dM, l0, l1, cosE, sinE, ng, one, zero]
    have e2 : (!![Flt.cos (.fin 0), Flt.lit 0, -Flt.sin (.fin 0); Flt.lit 0, Flt.lit 1, Flt.lit 0; Flt.sin (.fin 0), Flt.lit 0, Flt.cos (.fin 0)] : M3 E) = dM 1 := by
      ext i j
      fin_cases i <;> fin_cases j <;> simp [dM, l0, l1, cosE, sinE, ng, one, zero]
    have e1 : (!![Flt.lit 1, Flt.lit 0, Flt.lit 0; Flt.lit 0, Flt.cos (.fin x), Flt.sin (.fin x); Flt.lit 0, -Flt.sin (.fin x), Flt.cos (.fin x)] : M3 E)
        = dM !![1, 0, 0; 0, c, s; 0, -s, c] := by
      ext i j
      fin_cases i <;> fin_cases j <;> simp [dM, l0, l1, cosE, sinE, ng, hc, hs]
    show mmul (mmul _ _) _ = _
    have hA : ∀ i j, ieeeEven ((!![1, 0, 0; 0, c, s; 0, -s, c] : M3 ℝ) i j) = (!![1, 0, 0; 0, c, s; 0, -s, c] : M3 ℝ) i j
        ∧ |(!![1, 0, 0; 0, c, s; 0, -s, c] : M3 ℝ) i j| ≤ 1e200 := by
      have b : (1 : ℝ) ≤ 1e200 := by norm_num
      intro i j
      fin_cases i <;> fin_cases j <;> simp [h.one, h.zero, cc, ss, sn] <;> linarith
    calc _ = mmul (mmul (!![Flt.lit 1, Flt.lit 0, Flt.lit 0; Flt.lit 0, Flt.cos (.fin x), Flt.sin (.fin x); Flt.lit 0, -Flt.sin (.fin x), Flt.cos (.fin x)] : M3 E)
          (!![Flt.cos (.fin 0), Flt.lit 0, -Flt.sin (.fin 0); Flt.lit 0, Flt.lit 1, Flt.lit 0; Flt.sin (.fin 0), Flt.lit 0, Flt.cos (.fin 0)] : M3 E))
          (!![Flt.cos (.fin 0), Flt.sin (.fin 0), Flt.lit 0; -Flt.sin (.fin 0), Flt.cos (.fin 0), Flt.lit 0; Flt.lit 0, Flt.lit 0, Flt.lit 1] : M3 E) := rfl
      _ = _ := by rw [e1, e2, e3, mmul_dM_one _ hA, mmul_dM_one _ hA]
  rw [key]
  refine C137_near_quarter_turn_fails c s cc ?_ q0
  have hcos : |Real.cos x| ≤ 1e-16 := by
    have := Real.abs_cos_sub_cos_le x (Real.pi / 2)
    rw [Real.cos_pi_div_two, sub_zero] at this
    exact this.trans hx
  obtain ⟨h1, h2⟩ := abs_le.1 hcos
  have hC := Machine.faithful .cos x 0
  have m1 := hC.mono (h1.trans' (show -(15 * (2 : ℝ) ^ (-57 : ℤ)) ≤ -1e-16 by norm_num))
  have m2 := hC.mono (h2.trans (show (1e-16 : ℝ) ≤ 15 * (2 : ℝ) ^ (-57 : ℤ) by norm_num))
  have k1 : Machine.lib .cos x 0 (15 * (2 : ℝ) ^ (-57 : ℤ)) = 15 * (2 : ℝ) ^ (-57 : ℤ) := by
    simpa using hC.keeps 15 (-57) (by norm_num) (by norm_num)
  have k2 : Machine.lib .cos x 0 (-(15 * (2 : ℝ) ^ (-57 : ℤ))) = -(15 * (2 : ℝ) ^ (-57 : ℤ)) := by
    simpa using hC.keeps (-15) (-57) (by norm_num) (by norm_num)
  rw [k1] at m2
  rw [k2] at m1
  rw [abs_lt]
  constructor
  · refine lt_of_lt_of_le ?_ m1
    norm_num
  · refine lt_of_le_of_lt m2 ?_
    norm_num

/-- correctly rounded library functions give doubles -/
example : letI := Machine.of ieeeEven_rounds; LibDoubles := fun _ _ _ v => ieee_isDouble roundEven_int v

/-- the double `M_PI / 2` is such an angle -/
example : |884279719003555 / 562949953421312 - Real.pi / 2| ≤ 1e-16 := by
  have h1 := Real.pi_gt_d20; have h2 := Real.pi_lt_d20
  rw [abs_le]; constructor <;> norm_num at * <;> linarith

end NavFuse.Props
