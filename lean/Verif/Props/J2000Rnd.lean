import Verif.Lemmas.RoundFrames
import Verif.Lemmas.RoundJ2000
import Verif.Props.J2000
import Verif.Props.Geodesy
import Verif.Props.MjdRnd

/-! # Frame matrices in rounded arithmetic: C117, C118 -/

namespace NavFuse.Props
open Matrix Spec Rotations
variable [Machine] {r : ℝ → ℝ}

omit [Machine] in
/-- What a successful request has gone through, over any scalar type. -/
theorem j2k_success_any {α : Type} [Add α] [Sub α] [Mul α] [Div α] [Neg α] [Flt α] (obj o : Obj α) (v : List α) (f : List Char) (R0 M : M3 α)
    (h : computeRJ2k2Ecef obj v f R0 = .ok (true, M, o)) :
    ∃ u e, convertDatevec2Mjd v (Flt.lit 0) = .ok (true, u) ∧ getCurrentEop obj u = .ok (some e) ∧ M = j2kProduct u e := by
  simp only [computeRJ2k2Ecef] at h
  split_ifs at h with hl
  · cases h
  · cases hc : convertDatevec2Mjd v (Flt.lit 0 : α) with
    | error s => rw [hc] at h; cases h
    | ok p =>
      obtain ⟨ok, m⟩ := p
      cases ok
      · rw [hc] at h; cases h
      · cases hg : getCurrentEop obj m with
        | error s => rw [hc] at h; simp [osimp, hg] at h
        | ok r =>
          cases r with
          | none => rw [hc] at h; simp [osimp, hg] at h
          | some e =>
            rw [hc] at h
            simp [osimp, hg] at h
            exact ⟨m, e, rfl, hg, h.1.symm⟩

/-- Terrestrial Time and UT1 as computed, src/util/Rotations.cpp:181-185 -/
noncomputable def ttAny {α : Type} [Add α] [Sub α] [Mul α] [Div α] [Neg α] [Flt α] (u : α) (e : EopVal α) : α :=
  u + (Flt.lit 32.184 - -e.taiUtc) / Flt.lit 86400
noncomputable def ut1Any {α : Type} [Add α] [Sub α] [Mul α] [Div α] [Neg α] [Flt α] (u : α) (e : EopVal α) : α := u + e.ut1Utc / Flt.lit 86400

omit [Machine] in
theorem computeNutation_any {α : Type} [Add α] [Sub α] [Mul α] [Div α] [Neg α] [Flt α] (tt : α) : computeNutation tt
    = mmul (mmul (frameX (-meanObliquity tt - (nutationAngles tt).2)) (frameZ (-(nutationAngles tt).1))) (frameX (meanObliquity tt)) := by
  unfold computeNutation
  generalize nutationAngles tt = n
  rfl

omit [Machine] in
theorem j2k_any {α : Type} [Add α] [Sub α] [Mul α] [Div α] [Neg α] [Flt α] (u : α) (e : EopVal α) : j2kProduct u e
    = mmul (mmul (mmul (mmul (frameY (-e.xPole)) (frameX (-e.yPole))) (frameZ (gsTime (ut1Any u e) (ttAny u e))))
        (mmul (mmul (frameX (-meanObliquity (ttAny u e) - (nutationAngles (ttAny u e)).2)) (frameZ (-(nutationAngles (ttAny u e)).1)))
          (frameX (meanObliquity (ttAny u e)))))
      (mmul (mmul (frameZ (-(precAngles (ttAny u e)).1)) (frameY (precAngles (ttAny u e)).2.1)) (frameZ (-(precAngles (ttAny u e)).2.2))) := by
  have ej : j2kProduct u e = mmul (mmul (mmul (polarRotation e.xPole e.yPole) (computeGreenwichHourAngle (ut1Any u e) (ttAny u e)))
    (computeNutation (ttAny u e))) (computePrecession mjdJ2000 (ttAny u e)) := rfl
  have e2 : computePrecession mjdJ2000 (ttAny u e) = mmul (mmul (frameZ (-(precAngles (ttAny u e)).1)) (frameY (precAngles (ttAny u e)).2.1))
    (frameZ (-(precAngles (ttAny u e)).2.2)) := rfl
  rw [ej, polarRotation, computeGreenwichHourAngle, computeNutation_any, e2]

/-- the product of the nine frame rotations, when the computed angles are close to given ones -/
theorem j2k_near (h : Rounds53 r) (u : Rnd r) (e : EopVal (Rnd r)) {x y g a b c z t w dx dy dg da db dc dz dt dw : ℝ}
    (hx : |(-e.xPole).val - x| ≤ dx) (hy : |(-e.yPole).val - y| ≤ dy)
    (hg : |(gsTime (ut1Any u e) (ttAny u e)).val - g| ≤ dg)
    (ha : |(-meanObliquity (ttAny u e) - (nutationAngles (ttAny u e)).2).val - a| ≤ da)
    (hb : |(-(nutationAngles (ttAny u e)).1).val - b| ≤ db) (hc : |(meanObliquity (ttAny u e)).val - c| ≤ dc)
    (hz : |(-(precAngles (ttAny u e)).1).val - z| ≤ dz) (ht : |((precAngles (ttAny u e)).2.1).val - t| ≤ dt)
    (hw : |(-(precAngles (ttAny u e)).2.2).val - w| ≤ dw)
    (bx : dx ≤ 1e-5) (by' : dy ≤ 1e-5) (bg : dg ≤ 1e-5) (ba : da ≤ 1e-5) (bb : db ≤ 1e-5) (bc : dc ≤ 1e-5) (bz : dz ≤ 1e-5) (bt : dt ≤ 1e-5) (bw : dw ≤ 1e-5) :
    RowsNear (j2kProduct u e) (R2 x * R1 y * R3 g * (R1 a * R3 b * R1 c) * (R3 z * R2 t * R3 w))
      (dx + 174 / 100 * dy + 174 / 100 * dg + 174 / 100 * (da + 174 / 100 * db + 174 / 100 * dc) + 174 / 100 * (dz + 174 / 100 * dt + 174 / 100 * dw) + 230 * ulp) := by
  have hu := ulp_pos
  have hu2 := ulp_le
  norm_num at bx by' bg ba bb bc bz bt bw
  have p1 := three_near h (R2_isRot _) (R1_isRot _) (R3_isRot _) (frame_near h _ _ _ hx).2.1 (frame_near h _ _ _ hy).1 (frame_near h _ _ _ hg).2.2
    (by linarith) (by linarith) (by linarith)
  have p2 := three_near h (R1_isRot _) (R3_isRot _) (R1_isRot _) (frame_near h _ _ _ ha).1 (frame_near h _ _ _ hb).2.2 (frame_near h _ _ _ hc).1
    (by linarith) (by linarith) (by linarith)
  have p3 := three_near h (R3_isRot _) (R2_isRot _) (R3_isRot _) (frame_near h _ _ _ hz).2.2 (frame_near h _ _ _ ht).2.1 (frame_near h _ _ _ hw).2.2
    (by linarith) (by linarith) (by linarith)
  have i1 := ((R2_isRot x).mul (R1_isRot y)).mul (R3_isRot g)
  have i2 := ((R1_isRot a).mul (R3_isRot b)).mul (R1_isRot c)
  have i3 := ((R3_isRot z).mul (R2_isRot t)).mul (R3_isRot w)
  have q1 := p1.mmul h p2 i1 i2 (by linarith) (by linarith)
  have q2 := q1.mmul h p3 (i1.mul i2) i3 (by linarith) (by linarith)
  rw [j2k_any]
  exact q2.mono (by linarith)

theorem j2k_near_rot (h : Rounds53 r) (u : Rnd r) (e : EopVal (Rnd r)) : ∃ E, IsRot E ∧ RowsNear (j2kProduct u e) E (230 * ulp) := by
  have ex : ∀ x : ℝ, ∃ y, |x - y| ≤ 0 := fun x => ⟨x, by rw [sub_self, abs_zero]⟩
  obtain ⟨x, hx⟩ := ex (-e.xPole).val
  obtain ⟨y, hy⟩ := ex (-e.yPole).val
  obtain ⟨g, hg⟩ := ex (gsTime (ut1Any u e) (ttAny u e)).val
  obtain ⟨a, ha⟩ := ex (-meanObliquity (ttAny u e) - (nutationAngles (ttAny u e)).2).val
  obtain ⟨b, hb⟩ := ex (-(nutationAngles (ttAny u e)).1).val
  obtain ⟨c, hc⟩ := ex (meanObliquity (ttAny u e)).val
  obtain ⟨z, hz⟩ := ex (-(precAngles (ttAny u e)).1).val
  obtain ⟨t, ht⟩ := ex ((precAngles (ttAny u e)).2.1).val
  obtain ⟨w, hw⟩ := ex (-(precAngles (ttAny u e)).2.2).val
  have n : (0 : ℝ) ≤ 1e-5 := by norm_num
  exact ⟨_, ((((R2_isRot _).mul (R1_isRot _)).mul (R3_isRot _)).mul (((R1_isRot _).mul (R3_isRot _)).mul (R1_isRot _))).mul
    (((R3_isRot _).mul (R2_isRot _)).mul (R3_isRot _)), (j2k_near h u e hx hy hg ha hb hc hz ht hw n n n n n n n n n).mono (by linarith)⟩

omit [Machine] in
theorem det_one_add {D : Matrix (Fin 3) (Fin 3) ℝ} (h : ∀ i j, |D i j| ≤ 1 / 1000) : 0 < (1 + D).det := by
  have t : ∀ {x y z a b c : ℝ}, |x| ≤ a → |y| ≤ b → |z| ≤ c → |x * y * z| ≤ a * b * c := fun {x y z a b c} hx hy hz => by
    rw [abs_mul, abs_mul]
    have a0 := (abs_nonneg x).trans hx
    have b0 := (abs_nonneg y).trans hy
    have := mul_le_mul hx hy (abs_nonneg _) a0
    exact mul_le_mul this hz (abs_nonneg _) (mul_nonneg a0 b0)
  have d : ∀ i, |1 + D i i| ≤ 1001 / 1000 := fun i => by have := abs_le.1 (h i i); rw [abs_le]; constructor <;> linarith
  rw [det_fin_three]
  simp only [Matrix.add_apply, Matrix.one_apply_eq, ne_eq, Fin.reduceEq, not_false_eq_true, Matrix.one_apply_ne, zero_add]
  have e0 := abs_le.1 (h 0 0); have e1 := abs_le.1 (h 1 1); have e2 := abs_le.1 (h 2 2)
  have c1 := abs_le.1 (t (d 0) (h 1 2) (h 2 1))
  have c2 := abs_le.1 (t (h 0 1) (h 1 0) (d 2))
  have c3 := abs_le.1 (t (h 0 1) (h 1 2) (h 2 0))
  have c4 := abs_le.1 (t (h 0 2) (h 1 0) (h 2 1))
  have c5 := abs_le.1 (t (h 0 2) (d 1) (h 2 0))
  have m1 : (999 / 1000) * (999 / 1000) ≤ (1 + D 0 0) * (1 + D 1 1) := mul_le_mul (by linarith) (by linarith) (by norm_num) (by linarith)
  have m2 : (999 / 1000) * (999 / 1000) * (999 / 1000) ≤ (1 + D 0 0) * (1 + D 1 1) * (1 + D 2 2) := mul_le_mul m1 (by linarith) (by norm_num) (by nlinarith)
  linarith [c1.2, c2.2, c3.1, c4.1, c5.2]

omit [Machine] in
theorem RowsNear.det_pos {A : M3 (Rnd r)} {E : Matrix (Fin 3) (Fin 3) ℝ} {d : ℝ} (h : RowsNear A E d) (hE : IsRot E) (hd : d ≤ 1 / 1000) :
    0 < (valM A).det := by
  have e : valM A * Eᵀ = 1 + (valM A - E) * Eᵀ := by rw [sub_mul, hE.1]; abel
  have h1 := det_one_add (D := (valM A - E) * Eᵀ) fun i j => by
    have := dot_le_len3 (valM A i - E i) (E j)
    rw [hE.row_len3, mul_one] at this
    exact this.trans ((h i).trans hd)
  rw [← e, det_mul, det_transpose, hE.2, mul_one] at h1
  exact h1

omit [Machine] in
/-- one entry of the ECEF/NED matrices -/
theorem prod_near (h : Rounds53 r) {x y : Rnd r} {s t : ℝ} (hx : |x.val - s| ≤ ulp) (hy : |y.val - t| ≤ ulp) (hs : |s| ≤ 1) (ht : |t| ≤ 1) :
    |(x * y).val - s * t| ≤ 32 / 10 * ulp := by
  have hu := ulp_pos
  have hu2 := ulp_le
  have e : |x.val * y.val - s * t| ≤ ulp * (1 + ulp) + ulp := by
    rw [show x.val * y.val - s * t = (x.val - s) * y.val + s * (y.val - t) by ring]
    refine (abs_add_le _ _).trans ?_
    rw [abs_mul, abs_mul]
    have hy1 : |y.val| ≤ 1 + ulp := by
      have := abs_add_le (y.val - t) t
      rw [sub_add_cancel] at this; linarith
    have h1 := mul_le_mul hx hy1 (abs_nonneg _) hu.le
    have h2 := mul_le_mul hs hy (abs_nonneg _) zero_le_one
    linarith
  have st : |s * t| ≤ 1 := by rw [abs_mul]; exact mul_le_one₀ hs (abs_nonneg _) ht
  have := h.step e st
  refine this.trans ?_
  have c : ulp * ulp ≤ ulp * (1 / 10 ^ 15) := mul_le_mul_of_nonneg_left hu2 hu.le
  have c2 : ulp * ulp * ulp ≤ ulp * ulp * 1 := mul_le_mul_of_nonneg_left (by linarith) (by positivity)
  norm_num at c
  nlinarith

/-- the NED-to-ECEF matrix -/
theorem ned_near (h : Rounds53 r) (lat lon : Rnd r) (R0 : M3 (Rnd r)) (hok : (computeRNed2Ecef lat lon R0).1 = true) :
    RowsNear (computeRNed2Ecef lat lon R0).2 (ned2ecef lat.val lon.val) (6 * ulp) ∧
    RowsNear (mtr (computeRNed2Ecef lat lon R0).2) (ned2ecef lat.val lon.val)ᵀ (6 * ulp) := by
  have hu := ulp_pos
  have hu2 := ulp_le
  have hb : latLonBad lat lon = false := by
    by_contra hn
    rw [computeRNed2Ecef, if_pos (by simpa using hn)] at hok
    simp at hok
  have hs : ∀ x : Rnd r, |(Flt.sin x).val - Real.sin x.val| ≤ ulp := fun x => by
    have := (Machine.faithful .sin x.val 0).rel_le (Real.abs_sin_le_one x.val) (by norm_num)
    rw [div_eq_mul_one_div, ← ulp, one_mul] at this; exact this
  have hc : ∀ x : Rnd r, |(Flt.cos x).val - Real.cos x.val| ≤ ulp := fun x => by
    have := (Machine.faithful .cos x.val 0).rel_le (Real.abs_cos_le_one x.val) (by norm_num)
    rw [div_eq_mul_one_div, ← ulp, one_mul] at this; exact this
  have ng : ∀ {x : Rnd r} {s d : ℝ}, |x.val - s| ≤ d → |(-x).val - -s| ≤ d := fun {x s d} hx => by
    have e : (-x).val = -x.val := rfl
    rw [e, neg_sub_neg, abs_sub_comm]; exact hx
  have an : ∀ {s : ℝ}, |s| ≤ 1 → |-s| ≤ 1 := fun hs => by rwa [abs_neg]
  have sl := Real.abs_sin_le_one lat.val
  have cl := Real.abs_cos_le_one lat.val
  have so := Real.abs_sin_le_one lon.val
  have co := Real.abs_cos_le_one lon.val
  have up : ∀ {x d : ℝ}, |x| ≤ ulp → |x| ≤ 32 / 10 * ulp := fun hx => hx.trans (by linarith)
  have z : |(Flt.lit 0 : Rnd r).val - 0| ≤ 32 / 10 * ulp := by rw [Rnd.lit_zero h]; simp; positivity
  have e : ∀ i j, |((computeRNed2Ecef lat lon R0).2 i j).val - ned2ecef lat.val lon.val i j| ≤ 32 / 10 * ulp := by
    have e00 := prod_near h (ng (hs lat)) (hc lon) (an sl) co
    have e01 := up (d := 0) (ng (hs lon))
    have e02 := prod_near h (ng (hc lat)) (hc lon) (an cl) co
    have e10 := prod_near h (ng (hs lat)) (hs lon) (an sl) so
    have e11 := up (d := 0) (hc lon)
    have e12 := prod_near h (ng (hc lat)) (hs lon) (an cl) so
    have e20 := up (d := 0) (hc lat)
    have e22 := up (d := 0) (ng (hs lat))
    intro i j
    simp only [computeRNed2Ecef, hb, Bool.false_eq_true, if_false]
    fin_cases i <;> fin_cases j
    · exact e00
    · exact e01
    · exact e02
    · exact e10
    · exact e11
    · exact e12
    · exact e20
    · exact z
    · exact e22
  refine ⟨fun i => ?_, fun i => ?_⟩
  · have := len3_of_entries (v := valM (computeRNed2Ecef lat lon R0).2 i - ned2ecef lat.val lon.val i) (c := 32 / 10 * ulp) (by positivity) (fun j => e i j)
    linarith
  · have := len3_of_entries (v := valM (mtr (computeRNed2Ecef lat lon R0).2) i - (ned2ecef lat.val lon.val)ᵀ i) (c := 32 / 10 * ulp) (by positivity) (fun j => e j i)
    linarith

/-- `A` is orthogonal, with positive determinant, to within a relative accuracy `d`: it is within `d` of a rotation, row by row, and so is its transpose
within `2 d`; it stretches or shrinks no vector by more than `2 d`; it times its transpose is within `2.1 d` of the identity, entry by entry. -/
structure NearlyRot (A : M3 (Rnd r)) (d : ℝ) : Prop where
  near : ∃ E, IsRot E ∧ ∀ i j, |(A i j).val - E i j| ≤ d
  gram : ∀ i j, |(valM A * (valM A)ᵀ - 1) i j| ≤ 21 / 10 * d
  length : ∀ x, |len3 (valM A *ᵥ x) - len3 x| ≤ 2 * d * len3 x
  det : 0 < (valM A).det

omit [Machine] in
theorem RowsNear.nearlyRot {A : M3 (Rnd r)} {E : Matrix (Fin 3) (Fin 3) ℝ} {d : ℝ} (h : RowsNear A E d) (hE : IsRot E) (hd : d ≤ 1 / 1000) :
    NearlyRot A d where
  near := ⟨E, hE, fun i j => (le_len3 (valM A i - E i) j).trans (h i)⟩
  gram := h.gram hE (by linarith)
  length x := by
    refine (h.length hE x).trans ?_
    have d0 := (len3_nonneg' _).trans (h 0)
    have := mul_nonneg d0 (len3_nonneg' x)
    linarith
  det := h.det_pos hE hd

omit [Machine] in
theorem RowsNear.transpose {A : M3 (Rnd r)} {E : Matrix (Fin 3) (Fin 3) ℝ} {d : ℝ} (h : RowsNear A E d) : RowsNear (mtr A) Eᵀ (1733 / 1000 * d) :=
  fun i => len3_of_entries (v := valM (mtr A) i - Eᵀ i) ((len3_nonneg' _).trans (h 0)) fun j => (le_len3 (valM A j - E j) i).trans (h j)

/-- C117. In double precision, in every rounding mode: whatever the time stamp and the contents of the table, a matrix returned with success by the
J2000 functions is a proper rotation up to 400·2⁻⁵² < 10⁻¹³, and one returned with success by the ECEF/NED functions up to 6·2⁻⁵². -/
theorem C117_orthogonal (h : Rounds53 r) (obj o : Obj (Rnd r)) (v : List (Rnd r)) (f : List Char) (lat lon : Rnd r) (R0 M : M3 (Rnd r)) :
    (computeRJ2k2Ecef obj v f R0 = .ok (true, M, o) → NearlyRot M (230 / 2 ^ 52)) ∧
    (computeREcef2J2k obj v f R0 = .ok (true, M, o) → NearlyRot M (400 / 2 ^ 52)) ∧
    ((computeRNed2Ecef lat lon R0).1 = true → NearlyRot (computeRNed2Ecef lat lon R0).2 (6 / 2 ^ 52)) ∧
    ((computeREcef2Ned lat lon R0).1 = true → NearlyRot (computeREcef2Ned lat lon R0).2 (6 / 2 ^ 52)) := by
  have hu := ulp_pos
  have hu2 := ulp_le
  have c : ∀ k : ℝ, k / 2 ^ 52 = k * ulp := fun k => by rw [ulp]; ring
  rw [c, c, c]
  refine ⟨fun hs => ?_, fun hs => ?_, fun hs => ?_, fun hs => ?_⟩
  · obtain ⟨u, e, -, -, rfl⟩ := j2k_success_any obj o v f R0 M hs
    obtain ⟨E, hE, hn⟩ := j2k_near_rot h u e
    exact hn.nearlyRot hE (by linarith)
  · have h' := (C18_transpose obj v f f R0 R0).2.1 M o hs
    obtain ⟨u, e, -, -, hM⟩ := j2k_success_any obj o v f R0 _ h'
    obtain ⟨E, hE, hn⟩ := j2k_near_rot h u e
    rw [← hM] at hn
    have ht := hn.transpose
    have e : mtr (mtr M) = M := rfl
    rw [e] at ht
    exact (ht.mono (by linarith : _ ≤ 400 * ulp)).nearlyRot hE.transpose (by linarith)
  · exact (ned_near h lat lon R0 hs).1.nearlyRot (ned2ecef_isRot _ _) (by linarith)
  · obtain ⟨hb, ht⟩ := C21_bitwise_transpose lat lon R0 R0
    have ht : (computeREcef2Ned lat lon R0).2 = mtr (computeRNed2Ecef lat lon R0).2 := by ext i j; rw [ht hs i j]; rfl
    rw [ht]
    exact (ned_near h lat lon R0 (hb ▸ hs)).2.nearlyRot (ned2ecef_isRot _ _).transpose (by linarith)

/-! ## The angles -/

omit [Machine] in
theorem argPolys_R (T : ℝ) : argPolys T = (iauArgs T 0, iauArgs T 1, iauArgs T 2, iauArgs T 3, iauArgs T 4) := by
  simp only [argPolys, rev_R, iauArgs]
  simp only [rsimp]
  simp
  refine ⟨?_, ?_, ?_, ?_, ?_⟩ <;> ring

omit [Machine] in
theorem nutArg_turns (a : Fin 5 → ℝ) (k0 k1 k2 k3 k4 : ℤ) (c : NutRow) : ∃ K : ℤ,
    nutArg (a 0 + k0 * 1296000) (a 1 + k1 * 1296000) (a 2 + k2 * 1296000) (a 3 + k3 * 1296000) (a 4 + k4 * 1296000) c
      = termAngle a c + K * (2 * Real.pi) := by
  refine ⟨c.c0 * k0 + c.c1 * k1 + c.c2 * k2 + c.c3 * k3 + c.c4 * k4, ?_⟩
  simp only [nutArg, arcs_R, termAngle, arcsec, R_ofInt]
  rw [div_div_eq_mul_div]
  push_cast
  ring

theorem nut_ap (h : Rounds53 r) {x : Rnd r} {y : ℝ} (hx : Ap x y 6e-11 88071) (hy : |y - 51544.5| ≤ 36527) :
    Ap (nutationAngles x).1 (nutationAngles y).1 2.2e-13 1e-4 ∧ Ap (nutationAngles x).2 (nutationAngles y).2 2.2e-13 1e-4 := by
  have t := cent_ap h hx hy
  have arc := arcs_ap h
  obtain ⟨p0, p1, p2, p3, p4⟩ := argPolys_ap h t
  obtain ⟨-, q1, q2⟩ := C19_reduction y
  have hc : (y - (mjdJ2000 : ℝ)) / Flt.lit 36525 = centuries y := by rw [J_R]; simp only [centuries, rsimp]
  rw [hc, argPolys_R] at p0 p1 p2 p3 p4
  rw [hc] at t
  have m1 := (C19_bounded y).1
  have m2 := (C19_bounded y).2
  have yc := t.mag
  have ha : 0 < arcsec ∧ arcsec < 4.85e-6 := by
    have := Real.pi_lt_d4; have := Real.pi_pos
    unfold arcsec; constructor
    · positivity
    · rw [div_lt_iff₀ (by norm_num)]; norm_num at *; linarith
  have mm1 : |(nutationAngles y).1| ≤ 1e-4 := by
    refine m1.trans ?_
    norm_num at yc ha ⊢
    nlinarith [abs_nonneg (centuries y)]
  have mm2 : |(nutationAngles y).2| ≤ 1e-4 := by
    refine m2.trans ?_
    norm_num at yc ha ⊢
    nlinarith [abs_nonneg (centuries y)]
  have e1 : (nutationAngles y).1 = (((0.00001 : ℚ) : ℝ) * (0 + (nutTable.map fun c => ((c.c5 : ℝ) + c.c6 * centuries y) * Real.sin (termAngle (iauArgs (centuries y)) c)).sum)) / arcs := by
    rw [q1, arcs_R, div_div_eq_mul_div, arcsec]; push_cast; norm_num; ring
  have e2 : (nutationAngles y).2 = (((0.00001 : ℚ) : ℝ) * (0 + (nutTable.map fun c => ((c.c7 : ℝ) + c.c8 * centuries y) * Real.cos (termAngle (iauArgs (centuries y)) c)).sum)) / arcs := by
    rw [q2, arcs_R, div_div_eq_mul_div, arcsec]; push_cast; norm_num; ring
  suffices hs : Ap (nutationAngles x).1 (nutationAngles y).1 2.2e-13 1 ∧ Ap (nutationAngles x).2 (nutationAngles y).2 2.2e-13 1 from
    ⟨⟨hs.1.err, mm1⟩, ⟨hs.2.err, mm2⟩⟩
  rw [e1, e2]
  unfold nutationAngles
  generalize (x - mjdJ2000) / Flt.lit 36525 = T at *
  obtain ⟨k0, r0⟩ := reduce_ap h p0
  obtain ⟨k1, r1⟩ := reduce_ap h p1
  obtain ⟨k2, r2⟩ := reduce_ap h p2
  obtain ⟨k3, r3⟩ := reduce_ap h p3
  obtain ⟨k4, r4⟩ := reduce_ap h p4
  have args : ∀ c ∈ nutTable, ∃ K : ℤ, Ap (nutArg (reduceRev (argPolys T).1) (reduceRev (argPolys T).2.1) (reduceRev (argPolys T).2.2.1) (reduceRev (argPolys T).2.2.2.1) (reduceRev (argPolys T).2.2.2.2) c)
      (termAngle (iauArgs (centuries y)) c + K * (2 * Real.pi)) 2e-9 200 := fun c hc => by
    obtain ⟨K, hK⟩ := nutArg_turns (iauArgs (centuries y)) k0 k1 k2 k3 k4 c
    exact ⟨K, hK ▸ nutArg_ap h r0 r1 r2 r3 r4 c (nutTable_small c hc)⟩
  dsimp only
  have fp := fun a : NutRow → Rnd r => foldl_pair (β := Rnd r) (fun s (c : NutRow) => s + (Flt.ofInt c.c5 + Flt.ofInt c.c6 * T) * Flt.sin (a c))
    (fun s c => s + (Flt.ofInt c.c7 + Flt.ofInt c.c8 * T) * Flt.cos (a c)) nutTable (Flt.lit 0, Flt.lit 0)
  rw [fp (nutArg (reduceRev (argPolys T).1) (reduceRev (argPolys T).2.1) (reduceRev (argPolys T).2.2.1) (reduceRev (argPolys T).2.2.2.1)
    (reduceRev (argPolys T).2.2.2.2))]
  have fin : ∀ (w : NutRow → ℤ) (t : NutRow → Rnd r) (τ : NutRow → ℝ), (∀ c ∈ nutTable, Ap (t c) (τ c) (2.2e-9 * (w c : ℝ)) (w c)) → (nutTable.map w).sum ≤ 1950000 →
      Ap (Flt.lit 0.00001 * nutTable.foldl (fun s c => s + t c) (Flt.lit 0) / arcs : Rnd r) (((0.00001 : ℚ) : ℝ) * (0 + (nutTable.map τ).sum) / arcs) 2.2e-13 1 := by
    intro w t τ hw hsum
    have hsum' : (nutTable.map fun c => (w c : ℝ)).sum ≤ 1950000 := by
      have e : (nutTable.map fun c => (w c : ℝ)).sum = (((nutTable.map w).sum : ℤ) : ℝ) := by
        generalize nutTable = L
        induction L with
        | nil => simp
        | cons c L ih => simp [ih]
      rw [e]; exact_mod_cast hsum
    have hlen : (nutTable.length : ℝ) = 106 := by
      have : nutTable.length = 106 := by decide +kernel
      rw [this]; norm_num
    have z : |(Flt.lit 0 : Rnd r).val - 0| ≤ 0 := by rw [Rnd.lit_zero h]; simp
    have b := series_ap h (fun c => (w c : ℝ)) t τ nutTable hw (Flt.lit 0) 0 0 0 z (by simp) (by norm_num at *; linarith)
      (by rw [hlen]; norm_num at *; linarith)
    have m : ∀ L : List NutRow, (∀ c ∈ L, |τ c| ≤ w c) → |(L.map τ).sum| ≤ (L.map fun c => (w c : ℝ)).sum := by
      intro L
      induction L with
      | nil => simp
      | cons c L ih =>
        intro hL
        simp only [List.map_cons, List.sum_cons]
        refine (abs_add_le _ _).trans (add_le_add (hL c (by simp)) (ih fun c' hc' => hL c' (by simp [hc'])))
    have m' := m nutTable fun c hc => (hw c hc).mag
    have s0 : Ap (nutTable.foldl (fun s c => s + t c) (Flt.lit 0)) (0 + (nutTable.map τ).sum) 4.3e-3 1950000 := by
      refine ⟨b.trans ?_, ?_⟩
      · rw [hlen]; norm_num at *; linarith
      · rw [zero_add]; exact m'.trans hsum'
    have l0 : Ap (Flt.lit 0.00001 : Rnd r) ((0.00001 : ℚ) : ℝ) 1e-20 0.00001 := .lit h _ (by norm_num [abs_of_pos]) (by norm_num)
    have s1 := Ap.mul h l0 s0 (D := 4.31e-8) (N := 19.5) (by norm_num) (by norm_num)
    exact Ap.div h s1 arc (m := 206264) (q := 2.1e-13) arcs_abs (by norm_num) (by norm_num) (by norm_num) (by norm_num)
  have ab : ∀ a b : ℤ, (((a.natAbs : ℤ) + 2 * (b.natAbs : ℤ) : ℤ) : ℝ) = |(a : ℝ)| + 2 * |(b : ℝ)| := fun a b => by
    push_cast; simp
  have term : ∀ (co : Rnd r) (sn : Rnd r) (a b s : ℝ) (W : ℝ), (W = 0 ∨ 1 ≤ W) → Ap co a (2e-15 * W) W → Ap sn s 2.1e-9 1 → Ap (co * sn) (a * s) (2.2e-9 * W) W := by
    intro co sn a b s W hW h1 h2
    have := h1.M_nonneg
    exact Ap.mul h h1 h2 (by norm_num; linarith) (by linarith) (hW.elim (fun z => .inr (by rw [z]; norm_num)) fun z => .inl (by norm_num; linarith))
  have zw : ∀ a b : ℤ, |(a : ℝ)| + 2 * |(b : ℝ)| = 0 ∨ 1 ≤ |(a : ℝ)| + 2 * |(b : ℝ)| := fun a b => by
    rw [← ab]
    rcases eq_or_ne ((a.natAbs : ℤ) + 2 * (b.natAbs : ℤ)) 0 with h | h
    · left; rw [h]; simp
    · right; exact_mod_cast (by omega : 1 ≤ (a.natAbs : ℤ) + 2 * (b.natAbs : ℤ))
  dsimp only
  generalize hA : nutArg (reduceRev (argPolys T).1) (reduceRev (argPolys T).2.1) (reduceRev (argPolys T).2.2.1) (reduceRev (argPolys T).2.2.2.1)
    (reduceRev (argPolys T).2.2.2.2) = A at *
  generalize hN : nutTable = L at *
  constructor
  · refine fin (fun c => (c.c5.natAbs : ℤ) + 2 * (c.c6.natAbs : ℤ)) (fun c => (Flt.ofInt c.c5 + Flt.ofInt c.c6 * T) * Flt.sin (A c))
      (fun c => ((c.c5 : ℝ) + c.c6 * centuries y) * Real.sin (termAngle (iauArgs (centuries y)) c)) (fun c hc => ?_) (by rw [← hN]; decide +kernel)
    obtain ⟨K, hK⟩ := args c hc
    have hs := nutTable_small c (hN ▸ hc)
    have e := hK.sin h (D := 2.1e-9) (by norm_num)
    rw [Real.sin_add_int_mul_two_pi] at e
    rw [ab]
    exact term _ _ _ 0 _ _ (zw _ _) (coeff_ap h t c.c5 c.c6 hs.2.2.2.2.2.1 hs.2.2.2.2.2.2.1) e
  · refine fin (fun c => (c.c7.natAbs : ℤ) + 2 * (c.c8.natAbs : ℤ)) (fun c => (Flt.ofInt c.c7 + Flt.ofInt c.c8 * T) * Flt.cos (A c))
      (fun c => ((c.c7 : ℝ) + c.c8 * centuries y) * Real.cos (termAngle (iauArgs (centuries y)) c)) (fun c hc => ?_) (by rw [← hN]; decide +kernel)
    obtain ⟨K, hK⟩ := args c hc
    have hs := nutTable_small c (hN ▸ hc)
    have e := hK.cos h (D := 2.1e-9) (by norm_num)
    rw [Real.cos_add_int_mul_two_pi] at e
    rw [ab]
    exact term _ _ _ 0 _ _ (zw _ _) (coeff_ap h t c.c7 c.c8 hs.2.2.2.2.2.2.2.1 hs.2.2.2.2.2.2.2.2) e

/-- the angle of the Earth's rotation, for a UT1 as computed -/
theorem gs_near (h : Rounds53 r) (x : Rnd r) (hM : |x.val - 51544.5| ≤ 36526) {t : Rnd r} {y : ℝ} (ht : Ap t y 6e-11 88071) (hy : |y - 51544.5| ≤ 36527) :
    ∃ k : ℤ, |(gsTime x t).val - (2 * Real.pi * (gmstSec x.val / 86400) + (nutationAngles y).1 * Real.cos (meanObliquity y) + k * (2 * Real.pi))| ≤ 3e-12 := by
  have gm := gmst_ap h x hM
  have nu := (nut_ap h ht hy).1
  have ob := obliquity_ap h ht hy
  have secs : Ap (Flt.lit 86400 : Rnd r) ((86400 : ℚ) : ℝ) 2.16e-11 86400 := .lit h 86400 (by norm_num [abs_of_pos]) (by norm_num)
  have s := Ap.div h gm secs (m := 86400) (q := 3.8e-13) (D := 4.1e-13) (N := 102) (by norm_num [abs_of_pos]) (by norm_num) (by norm_num) (by norm_num) (by norm_num)
  have f0 := Int.floor_le (gmstSec x / Flt.lit 86400 : Rnd r).val
  have f1 := Int.lt_floor_add_one (gmstSec x / Flt.lit 86400 : Rnd r).val
  have se := abs_le.1 s.err
  have sm := abs_le.1 s.mag
  obtain ⟨F, hF⟩ : ∃ F : ℤ, F = ⌊(gmstSec x / Flt.lit 86400 : Rnd r).val⌋ := ⟨_, rfl⟩
  rw [← hF] at f0 f1
  have fl : Ap (Flt.floor (gmstSec x / Flt.lit 86400 : Rnd r)) (F : ℝ) 0 104 := by
    refine ⟨?_, ?_⟩
    · show |((⌊(gmstSec x / Flt.lit 86400 : Rnd r).val⌋ : ℤ) : ℝ) - F| ≤ 0
      rw [← hF]; simp
    · norm_num at se sm
      rw [abs_le]; constructor <;> linarith
  have v := Ap.sub_mag h s fl (N := 1.001) (D := 4.2e-13) (by norm_num at se sm ⊢; rw [abs_le]; constructor <;> linarith) (by norm_num)
  have tp : Ap (Flt.lit 2 * Flt.pi : Rnd r) (((2 : ℚ) : ℝ) * Real.pi) 6e-15 6.2832 :=
    Ap.mul h (.lit h 2 (N := 2) (D := 5e-16) (by norm_num) (by norm_num)) (Ap.pi h) (by norm_num) (by norm_num)
  have m := Ap.mul h tp v (D := 2.7e-12) (N := 6.29) (by norm_num) (by norm_num)
  have E := Ap.mul h nu (ob.cos h (D := 1e-15) (by norm_num)) (D := 2.3e-13) (N := 1e-4) (by norm_num) (by norm_num)
  have w := Ap.add h m E (D := 2.96e-12) (N := 6.3) (by norm_num) (by norm_num)
  have he : gsTime x t = Flt.fmod ((Flt.lit 2 * Flt.pi) * ((gmstSec x / Flt.lit 86400) - Flt.floor (gmstSec x / Flt.lit 86400))
    + (nutationAngles t).1 * Flt.cos (meanObliquity t)) (Flt.lit 2 * Flt.pi) := by
    unfold gsTime
    generalize nutationAngles t = n
    rfl
  rw [he]
  generalize (Flt.lit 2 * Flt.pi : Rnd r) * ((gmstSec x / Flt.lit 86400) - Flt.floor (gmstSec x / Flt.lit 86400))
    + (nutationAngles t).1 * Flt.cos (meanObliquity t) = W at *
  generalize (Flt.lit 2 * Flt.pi : Rnd r) = P at *
  have tpe := abs_le.1 tp.err
  have pl := Real.pi_gt_d4; have pg := Real.pi_lt_d4
  norm_num at tpe pl pg
  have hP : 6.28 < P.val := by norm_num; linarith
  obtain ⟨k, hk, hk2, -⟩ := fmod_pos_R W.val P.val (by linarith)
  have wl := abs_le.1 w.val_le
  norm_num at wl hP
  have hk2' := abs_lt.1 hk2
  rw [hk] at hk2'
  have k2 : |(k : ℝ)| ≤ 2 := by
    have a1 : k < 3 := by
      by_contra hc
      have : (3 : ℝ) ≤ k := by exact_mod_cast not_lt.1 hc
      nlinarith
    have a2 : -3 < k := by
      by_contra hc
      have : (k : ℝ) ≤ -3 := by exact_mod_cast not_lt.1 hc
      nlinarith
    have : |k| ≤ 2 := by rw [abs_le]; omega
    exact_mod_cast this
  refine ⟨-F - k, ?_⟩
  show |fmodR W.val P.val - _| ≤ _
  rw [hk]
  have e : W.val - k * P.val - (2 * Real.pi * (gmstSec x.val / 86400) + (nutationAngles y).1 * Real.cos (meanObliquity y) + ((-F - k : ℤ) : ℝ) * (2 * Real.pi))
      = (W.val - (((2 : ℚ) : ℝ) * Real.pi * (gmstSec x.val / ((86400 : ℚ) : ℝ) - F) + (nutationAngles y).1 * Real.cos (meanObliquity y)))
        - k * (P.val - ((2 : ℚ) : ℝ) * Real.pi) := by
    push_cast; ring
  rw [e]
  refine (abs_sub _ _).trans ?_
  rw [abs_mul]
  have b := mul_le_mul k2 tp.err (abs_nonneg _) (by norm_num)
  have c := w.err
  norm_num at b c ⊢
  linarith

omit [Machine] in
/-- sidereal time is continuous up to whole days and 2·10⁻¹⁰ s -/
theorem gmst_lipschitz (a b : ℝ) {d : ℝ} (hab : |a - b| ≤ d) (hd : d ≤ 1) (hb : |b - 51544.5| ≤ 36526) : ∃ k : ℤ, |gmstSec a - gmstSec b - 86400 * k| ≤ 86637 * d + 2e-10 := by
  have hd0 := (abs_nonneg _).trans hab
  obtain ⟨k, hk⟩ := C89_gmst a
  obtain ⟨l, hl⟩ := C89_gmst b
  refine ⟨k - l, ?_⟩
  have dg : |iauGmst (centuries a) - iauGmst (centuries b)| ≤ 86637 * d := by
    unfold iauGmst centuries
    have e : 67310.54841 + (876600 * 3600 + 8640184.812866) * ((a - 51544.5) / 36525) + 0.093104 * ((a - 51544.5) / 36525) ^ 2 -
        0.0000062 * ((a - 51544.5) / 36525) ^ 3 - (67310.54841 + (876600 * 3600 + 8640184.812866) * ((b - 51544.5) / 36525) + 0.093104 * ((b - 51544.5) / 36525) ^ 2 -
        0.0000062 * ((b - 51544.5) / 36525) ^ 3) = (a - b) * (((876600 * 3600 + 8640184.812866) / 36525) + 0.093104 / 36525 * ((a - 51544.5) / 36525 + (b - 51544.5) / 36525)
        - 0.0000062 / 36525 * (((a - 51544.5) / 36525) ^ 2 + (a - 51544.5) / 36525 * ((b - 51544.5) / 36525) + ((b - 51544.5) / 36525) ^ 2)) := by ring
    have hA : |(a - 51544.5) / 36525| ≤ 2 := by
      have h1 := abs_le.1 hab; have h2 := abs_le.1 hb
      norm_num at h1 h2
      rw [abs_le]; constructor <;> norm_num <;> linarith
    have hB : |(b - 51544.5) / 36525| ≤ 2 := by
      have h2 := abs_le.1 hb
      norm_num at h2
      rw [abs_le]; constructor <;> norm_num <;> linarith
    rw [e, abs_mul]
    generalize (a - 51544.5) / 36525 = A at *
    generalize (b - 51544.5) / 36525 = B at *
    have q1 : |A * B| ≤ 4 := by rw [abs_mul]; nlinarith [abs_nonneg A, abs_nonneg B]
    have q2 : A ^ 2 ≤ 4 := by rw [← sq_abs]; nlinarith [abs_nonneg A]
    have q3 : B ^ 2 ≤ 4 := by rw [← sq_abs]; nlinarith [abs_nonneg B]
    have hf : |(876600 * 3600 + 8640184.812866) / 36525 + 0.093104 / 36525 * (A + B) - 0.0000062 / 36525 * (A ^ 2 + A * B + B ^ 2)| ≤ 86637 := by
      have a1 := abs_le.1 hA; have b1 := abs_le.1 hB; have c1 := abs_le.1 q1
      have n1 := sq_nonneg A; have n2 := sq_nonneg B
      rw [abs_le]; constructor <;> norm_num <;> linarith
    have := mul_le_mul hab hf (abs_nonneg _) ((abs_nonneg _).trans hab)
    linarith
  have e : gmstSec a - gmstSec b - 86400 * ((k - l : ℤ) : ℝ) = (gmstSec a - (iauGmst (centuries a) + 86400 * k)) - (gmstSec b - (iauGmst (centuries b) + 86400 * l))
      + (iauGmst (centuries a) - iauGmst (centuries b)) := by push_cast; ring
  rw [e]
  refine (abs_add_le _ _).trans ?_
  have := abs_sub (gmstSec a - (iauGmst (centuries a) + 86400 * k)) (gmstSec b - (iauGmst (centuries b) + 86400 * l))
  norm_num at *
  linarith

/-- the values of the Earth orientation parameters -/
noncomputable def valE (e : EopVal (Rnd r)) : EopVal ℝ := ⟨e.xPole.val, e.yPole.val, e.ut1Utc.val, e.lod.val, e.taiUtc.val⟩

theorem j2k_accuracy_gen (h : Rounds53 r) (u : Rnd r) (e : EopVal (Rnd r)) (U : ℝ) (E : EopVal ℝ) {δ : ℝ} (hδ : δ ≤ 3.6e-11) (huU : |u.val - U| ≤ δ)
    (hu : |U - 51544.5| ≤ 36525) (htE : e.taiUtc.val = E.taiUtc) (htai : |E.taiUtc| ≤ 100) (huE : |e.ut1Utc.val - E.ut1Utc| ≤ 1e-10)
    (hut : |E.ut1Utc| ≤ 1) (hx : |e.xPole.val - E.xPole| ≤ 1e-13) (hy : |e.yPole.val - E.yPole| ≤ 1e-13) :
    RowsNear (j2kProduct u e) (j2kProduct U E) (3.2e-10 + 11 * δ) := by
  have ul := ulp_le'
  have hδ0 := (abs_nonneg _).trans huU
  norm_num at hδ
  have hu' := abs_le.1 hu
  norm_num at hu'
  have mu : |U| ≤ 88069.5 := by rw [abs_le]; constructor <;> norm_num <;> linarith
  have Uu : Ap u U δ 88069.5 := ⟨huU, mu⟩
  have tai : Ap e.taiUtc E.taiUtc 0 100 := ⟨by rw [htE]; simp, htai⟩
  have day : Ap (Flt.lit 86400 : Rnd r) (Flt.lit 86400 : ℝ) 2.16e-11 86400 := .lit h 86400 (by norm_num [abs_of_pos]) (by norm_num)
  have dayabs : (86400 : ℝ) ≤ |(Flt.lit 86400 : ℝ)| := by show (86400 : ℝ) ≤ |((86400 : ℚ) : ℝ)|; norm_num [abs_of_pos]
  have tt : Ap (ttAny u e) (ttAny U E) 6e-11 88071 := by
    have a : Ap (Flt.lit 32.184 : Rnd r) (Flt.lit 32.184 : ℝ) 1e-14 32.184 := .lit h 32.184 (by norm_num [abs_of_pos]) (by norm_num)
    have b := Ap.sub h a tai.neg (D := 5e-14) (N := 132.184) (by norm_num) (by norm_num)
    have c := Ap.div h b day (m := 86400) (q := 1e-18) (D := 2e-18) (N := 0.0016) dayabs (by norm_num) (by norm_num) (by norm_num) (by norm_num)
    exact Ap.add h Uu c (by norm_num; linarith) (by norm_num)
  have tty : |ttAny U E - 51544.5| ≤ 36527 := by
    have t := abs_le.1 htai
    have e1 : ttAny U E = U + (32.184 + E.taiUtc) / 86400 := by
      simp only [ttAny, rsimp, sub_neg_eq_add]
    rw [e1, abs_le]; constructor <;> norm_num <;> linarith
  have ut : Ap (ut1Any u e) (ut1Any U E) (2.3e-11 + δ) 88071 := by
    have c := Ap.div h (⟨huE, hut⟩ : Ap e.ut1Utc E.ut1Utc 1e-10 1) day (m := 86400) (q := 2e-15) (D := 3e-15) (N := 0.0001) dayabs (by norm_num) (by norm_num) (by norm_num) (by norm_num)
    exact Ap.add h Uu c (by norm_num; linarith) (by norm_num)
  have uty : |ut1Any U E - 51544.5| ≤ 36526 := by
    have t := abs_le.1 hut
    have e1 : ut1Any U E = U + E.ut1Utc / 86400 := by simp only [ut1Any, rsimp]
    rw [e1, abs_le]; constructor <;> norm_num <;> linarith
  have utx : |(ut1Any u e).val - 51544.5| ≤ 36526 := by
    have t := abs_le.1 hut
    have e1 : ut1Any U E = U + E.ut1Utc / 86400 := by simp only [ut1Any, rsimp]
    have w := abs_le.1 ut.err
    rw [e1] at w
    norm_num at w
    rw [abs_le]; constructor <;> norm_num <;> linarith
  have nu := nut_ap h tt tty
  have ob := obliquity_ap h tt tty
  have pr := prec_ap h tt tty
  have obn := Ap.sub h ob.neg nu.2 (D := 2.3e-13) (N := 1) (by norm_num) (by norm_num)
  obtain ⟨k, hk⟩ := gs_near h (ut1Any u e) utx tt tty
  obtain ⟨l, hl⟩ := gmst_lipschitz _ _ ut.err (by norm_num; linarith) uty
  obtain ⟨q, hq⟩ := gsTime_R (ut1Any U E) (ttAny U E)
  have hg : |(gsTime (ut1Any u e) (ttAny u e)).val - (gsTime (ut1Any U E) (ttAny U E) + ((k + l - q : ℤ) : ℝ) * (2 * Real.pi))| ≤ 1.71e-10 + 6.302 * δ := by
    rw [hq, ← obliquity_R]
    generalize (gsTime (ut1Any u e) (ttAny u e)).val = G at *
    generalize (nutationAngles (ttAny U E)).1 * Real.cos (meanObliquity (ttAny U E)) = W at *
    have e1 : G - (2 * Real.pi * (gmstSec (ut1Any U E) / 86400) + W + q * (2 * Real.pi) + ((k + l - q : ℤ) : ℝ) * (2 * Real.pi))
        = (G - (2 * Real.pi * (gmstSec (ut1Any u e).val / 86400) + W + k * (2 * Real.pi)))
          + 2 * Real.pi / 86400 * (gmstSec (ut1Any u e).val - gmstSec (ut1Any U E) - 86400 * l) := by push_cast; ring
    rw [e1]
    refine (abs_add_le _ _).trans ?_
    rw [abs_mul]
    have pg := Real.pi_lt_d4
    have hp : |2 * Real.pi / 86400| ≤ 7.273e-5 := by
      rw [abs_of_pos (by have := Real.pi_pos; positivity)]
      norm_num at pg ⊢
      linarith
    have := mul_le_mul hp hl (abs_nonneg _) (by norm_num)
    norm_num at this hk ⊢
    linarith
  have hx' : |(-e.xPole).val - -E.xPole| ≤ 1e-13 := by
    show |-e.xPole.val - -E.xPole| ≤ _
    rw [← neg_add', abs_neg, ← sub_eq_add_neg]; exact hx
  have hy' : |(-e.yPole).val - -E.yPole| ≤ 1e-13 := by
    show |-e.yPole.val - -E.yPole| ≤ _
    rw [← neg_add', abs_neg, ← sub_eq_add_neg]; exact hy
  have n := j2k_near h u e hx' hy' hg obn.err nu.1.neg.err ob.err pr.1.neg.err pr.2.1.err pr.2.2.neg.err (by norm_num) (by norm_num) (by norm_num; linarith)
    (by norm_num) (by norm_num) (by norm_num) (by norm_num) (by norm_num) (by norm_num)
  rw [R3_add_turns] at n
  have re : j2kProduct U E = R2 (-E.xPole) * R1 (-E.yPole) * R3 (gsTime (ut1Any U E) (ttAny U E)) *
      (R1 (-meanObliquity (ttAny U E) - (nutationAngles (ttAny U E)).2) * R3 (-(nutationAngles (ttAny U E)).1) *
        R1 (meanObliquity (ttAny U E))) *
      (R3 (-(precAngles (ttAny U E)).1) * R2 (precAngles (ttAny U E)).2.1 * R3 (-(precAngles (ttAny U E)).2.2)) := by
    rw [j2k_any]
    simp only [frameX_R, frameY_R, frameZ_R, R_mmul]
  rw [re]
  refine n.mono ?_
  norm_num at ul ⊢
  linarith

theorem j2k_accuracy (h : Rounds53 r) (u : Rnd r) (e : EopVal (Rnd r)) (hu : |u.val - 51544.5| ≤ 36525) (htai : |e.taiUtc.val| ≤ 100)
    (hut : |e.ut1Utc.val| ≤ 1) : RowsNear (j2kProduct u e) (j2kProduct u.val (valE e)) 3.2e-10 := by
  have n := j2k_accuracy_gen h u e u.val (valE e) (δ := 0) (by norm_num) (by simp) hu rfl htai (by simp [valE]; norm_num) hut (by simp [valE]; norm_num) (by simp [valE]; norm_num)
  exact n.mono (by norm_num)

/-- C118. Rounding errors of the J2000 matrices between 1900 and 2100, in every rounding mode: a request that succeeds has read the date as some `u` and
found parameters `e`, and if they are in the usual ranges then the matrix applied to any position differs from what exact arithmetic would give for these
`u` and `e` by at most 6·10⁻¹⁰ of its length (4 mm on the ground), and each entry by at most 3.2·10⁻¹⁰. -/
theorem C118_j2000_accuracy (h : Rounds53 r) (obj o : Obj (Rnd r)) (v : List (Rnd r)) (f : List Char) (R0 M : M3 (Rnd r)) :
    (computeRJ2k2Ecef obj v f R0 = .ok (true, M, o) →
      ∃ u e, convertDatevec2Mjd v (Flt.lit 0) = .ok (true, u) ∧ getCurrentEop obj u = .ok (some e) ∧
        (|u.val - 51544.5| ≤ 36525 → |e.taiUtc.val| ≤ 100 → |e.ut1Utc.val| ≤ 1 →
          (∀ i j, |(M i j).val - j2kProduct u.val (valE e) i j| ≤ 3.2e-10) ∧
          ∀ x, len3 (valM M *ᵥ x - j2kProduct u.val (valE e) *ᵥ x) ≤ 6e-10 * len3 x)) ∧
    (computeREcef2J2k obj v f R0 = .ok (true, M, o) →
      ∃ u e, convertDatevec2Mjd v (Flt.lit 0) = .ok (true, u) ∧ getCurrentEop obj u = .ok (some e) ∧
        (|u.val - 51544.5| ≤ 36525 → |e.taiUtc.val| ≤ 100 → |e.ut1Utc.val| ≤ 1 →
          ∀ i j, |(M i j).val - j2kProduct u.val (valE e) j i| ≤ 3.2e-10)) := by
  constructor
  · intro hs
    obtain ⟨u, e, h1, h2, rfl⟩ := j2k_success_any obj o v f R0 M hs
    refine ⟨u, e, h1, h2, fun a b c => ?_⟩
    have n := j2k_accuracy h u e a b c
    refine ⟨fun i j => (le_len3 (valM (j2kProduct u e) i - j2kProduct u.val (valE e) i) j).trans (n i), fun x => ?_⟩
    rw [← sub_mulVec]
    have l0 := len3_nonneg' x
    have := len3_of_entries (v := (valM (j2kProduct u e) - j2kProduct u.val (valE e)) *ᵥ x) (c := 3.2e-10 * len3 x) (by positivity) fun i => by
      have := dot_le_len3 ((valM (j2kProduct u e) - j2kProduct u.val (valE e)) i) x
      exact this.trans (mul_le_mul_of_nonneg_right (n i) l0)
    refine this.trans ?_
    norm_num
    linarith
  · intro hs
    have h' := (C18_transpose obj v f f R0 R0).2.1 M o hs
    obtain ⟨u, e, h1, h2, hM⟩ := j2k_success_any obj o v f R0 _ h'
    refine ⟨u, e, h1, h2, fun a b c i j => ?_⟩
    have n := j2k_accuracy h u e a b c
    rw [← hM] at n
    exact (le_len3 (valM (mtr M) j - j2kProduct u.val (valE e) j) i).trans (n j)

/-- non-vacuity of C117 and C118: midnight of 1 January 2000, rounding to nearest, a table with that day -/
example (R0 : M3 (Rnd nearest)) : ∃ (obj : Obj (Rnd nearest)) (M : M3 (Rnd nearest)) (u : Rnd nearest) (e : EopVal (Rnd nearest)),
    computeRJ2k2Ecef obj [whole 2000, whole 1, whole 1, whole 0, whole 0, whole 0] [] R0 = .ok (true, M, obj) ∧ getCurrentEop obj u = .ok (some e) ∧
    |u.val - 51544.5| ≤ 36525 ∧ |e.taiUtc.val| ≤ 100 ∧ |e.ut1Utc.val| ≤ 1 := by
  have hD : Date.Valid ⟨2000, 1, 1⟩ := ⟨by norm_num, by norm_num [monthLen], by norm_num⟩
  have hc := convert_date hD (h := 0) (mi := 0) (s := 0) (by norm_num) (by norm_num) (by norm_num) (0 : ℝ)
  have hz : mjdZ ⟨2000, 1, 1⟩ = 51544 := by decide
  obtain ⟨N, hN, hR⟩ := C106_midnight_exact nearest_rounds ⟨2000, 1, 1⟩ hD (by norm_num) (Flt.lit 0) 0
  have hN' : (N : ℝ) = 51544 := by
    rw [hz] at hc
    norm_num at hc
    have e : convertDatevec2Mjd (midnightVec ⟨2000, 1, 1⟩) (0 : ℝ) = .ok (true, (51544 : ℝ)) := by
      rw [← hc]; simp [midnightVec]
    rw [e] at hR
    simpa using hR.symm
  have fl : Flt.floor (whole N : Rnd nearest) = whole N := by
    show (⟨((⌊(N : ℝ)⌋ : ℤ) : ℝ)⟩ : Rnd nearest) = ⟨_⟩
    rw [Int.floor_intCast]
  have eq : Flt.eq (whole N : Rnd nearest) (whole N) = true := decide_eq_true rfl
  have z := nearest_rounds.zero
  obtain ⟨e, he, h1, h2⟩ : ∃ e : EopVal (Rnd nearest), getCurrentEop (⟨true, ⟨[whole N], [⟨0⟩], [⟨0⟩], [⟨0⟩], [⟨0⟩], [⟨32⟩]⟩⟩ : Obj (Rnd nearest)) (whole N) = .ok (some e)
      ∧ e.taiUtc.val = 32 ∧ e.ut1Utc.val = 0 := by
    refine ⟨⟨(⟨0⟩ + ((⟨0⟩ - ⟨0⟩) * (whole N - whole N))) / arcs, (⟨0⟩ + ((⟨0⟩ - ⟨0⟩) * (whole N - whole N))) / arcs, ⟨0⟩ + ((⟨0⟩ - ⟨0⟩) * (whole N - whole N)),
      ⟨0⟩ + ((⟨0⟩ - ⟨0⟩) * (whole N - whole N)), ⟨32⟩⟩, by simp [osimp, getCurrentEop, fl, eq, colGet], rfl, ?_⟩
    show nearest (0 + nearest (nearest (0 - 0) * _)) = 0
    rw [sub_zero, z, zero_mul, z, add_zero, z]
  refine ⟨_, j2kProduct (whole N) e, whole N, e, ?_, he, ?_, by rw [h1]; norm_num, by rw [h2]; norm_num⟩
  · rw [computeRJ2k2Ecef, hN]
    simp [osimp, he]
  · rw [whole_val, hN']; norm_num [abs_of_neg]

end NavFuse.Props
