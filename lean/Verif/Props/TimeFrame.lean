import Verif.Props.J2000Rnd
import Verif.Lemmas.EarthLip

/-! # From the time stamp to the orientation of the Earth: C119 -/

set_option linter.unusedSimpArgs false

namespace NavFuse.Props
open Matrix Spec Rotations
variable [Machine] {r : ℝ → ℝ}

/-- from a time stamp to the J2000-to-ECEF matrix: `unixTimestampToDateVec` followed by `computeRJ2k2Ecef` -/
def frameAt {α : Type} [Add α] [Sub α] [Mul α] [Div α] [Neg α] [Flt α] (obj : Obj α) (t : Int) (f : List Char) (R0 : M3 α) : Out (Bool × M3 α × Obj α) :=
  unixTimestampToDateVec t [] >>= fun w => computeRJ2k2Ecef obj w.2 f R0

/-- the numbers in a table -/
noncomputable def valT (t : Eops (Rnd r)) : Eops ℝ :=
  ⟨t.mjd.map Rnd.val, t.xPole.map Rnd.val, t.yPole.map Rnd.val, t.ut1Utc.map Rnd.val, t.lod.map Rnd.val, t.taiUtc.map Rnd.val⟩

/-- the parameters at the instant `u`, on the straight line between two rows of the table (polar motion there in seconds of arc) -/
noncomputable def eopAt (u : ℝ) (pre post : EopRow ℝ) : EopVal ℝ where
  xPole := between (Int.fract u) pre.xPole post.xPole * arcsec
  yPole := between (Int.fract u) pre.yPole post.yPole * arcsec
  ut1Utc := between (Int.fract u) pre.ut1Utc post.ut1Utc
  lod := between (Int.fract u) pre.lod post.lod
  taiUtc := pre.taiUtc

/-- a table with values of the usual size: polar motion up to one second of arc, |UT1 - UTC| ≤ 0.9 s, |TAI - UTC| ≤ 100 s -/
def UsualTable (t : Eops ℝ) : Prop :=
  ∀ i row, IsRow t i row → |row.xPole| ≤ 1 ∧ |row.yPole| ≤ 1 ∧ |row.ut1Utc| ≤ 0.9 ∧ |row.taiUtc| ≤ 100

/-- the rows used for day `D`: the first one of that day and the next one, if there is one -/
def RowsOf (t : Eops ℝ) (D : ℤ) (pre post : EopRow ℝ) : Prop :=
  ∃ i, IsRow t i pre ∧ IsRow t (if i + 1 < t.mjd.length then i + 1 else i) post ∧ pre.mjd = D ∧ ∀ j < i, t.mjd[j]? ≠ some (D : ℝ)

omit [Machine] in
theorem colGet_some {α : Type} {v : List α} {i : Nat} {x : α} (h : colGet v i = .ok x) : v[i]? = some x := by
  unfold colGet at h
  cases hv : v[i]? with
  | none => rw [hv] at h; cases h
  | some y => rw [hv] at h; cases h; rfl

/-- the interpolation as computed, from rows of the table -/
theorem eop_rnd (obj : Obj (Rnd r)) (hR : obj.eops.Rect) (u : Rnd r) (e : EopVal (Rnd r)) (h : getCurrentEop obj u = .ok (some e)) :
    ∃ pre post : EopRow ℝ, RowsOf (valT obj.eops) ⌊u.val⌋ pre post ∧
      e.xPole = ((⟨pre.xPole⟩ : Rnd r) + ((⟨post.xPole⟩ - ⟨pre.xPole⟩) * (u - Flt.floor u))) / arcs ∧
      e.yPole = ((⟨pre.yPole⟩ : Rnd r) + ((⟨post.yPole⟩ - ⟨pre.yPole⟩) * (u - Flt.floor u))) / arcs ∧
      e.ut1Utc = (⟨pre.ut1Utc⟩ : Rnd r) + ((⟨post.ut1Utc⟩ - ⟨pre.ut1Utc⟩) * (u - Flt.floor u)) ∧ e.taiUtc.val = pre.taiUtc := by
  unfold getCurrentEop at h
  split_ifs at h with hs
  · cases h
  simp only at h
  cases hf : obj.eops.mjd.findIdx? (fun m => Flt.eq m (Flt.floor u)) with
  | none => rw [hf] at h; cases h
  | some i =>
    rw [hf] at h
    simp only at h
    obtain ⟨hi, hit, hib⟩ := List.findIdx?_eq_some_iff_getElem.1 hf
    obtain ⟨r1, r2, r3, r4, r5⟩ := hR
    have gi : ∀ (v : List (Rnd r)) (k : Nat), k < v.length → ∃ x, colGet v k = .ok x := fun v k hk => ⟨v[k], by simp [colGet, hk]⟩
    have hk : (if i = obj.eops.mjd.length - 1 then i else i + 1) < obj.eops.mjd.length := by split_ifs <;> omega
    have hk' : (if i = obj.eops.mjd.length - 1 then i else i + 1) = (if i + 1 < obj.eops.mjd.length then i + 1 else i) := by split_ifs <;> omega
    obtain ⟨px, e1⟩ := gi obj.eops.xPole i (by omega)
    obtain ⟨py, e2⟩ := gi obj.eops.yPole i (by omega)
    obtain ⟨pu, e3⟩ := gi obj.eops.ut1Utc i (by omega)
    obtain ⟨pl, e4⟩ := gi obj.eops.lod i (by omega)
    obtain ⟨pt, e5⟩ := gi obj.eops.taiUtc i (by omega)
    obtain ⟨qx, f1⟩ := gi obj.eops.xPole _ (hk.trans_le r1.ge)
    obtain ⟨qy, f2⟩ := gi obj.eops.yPole _ (hk.trans_le r2.ge)
    obtain ⟨qu, f3⟩ := gi obj.eops.ut1Utc _ (hk.trans_le r3.ge)
    obtain ⟨ql, f4⟩ := gi obj.eops.lod _ (hk.trans_le r4.ge)
    obtain ⟨qt, f5⟩ := gi obj.eops.taiUtc _ (hk.trans_le r5.ge)
    rw [e1, e2, e3, e4, e5] at h
    simp only [osimp] at h
    rw [f1, f2, f3, f4] at h
    simp only [osimp] at h
    obtain rfl := Option.some.inj (Except.ok.inj h)
    rw [hk'] at f1 f2 f3 f4 f5 hk
    have val : ∀ {v : List (Rnd r)} {k : Nat} {x : Rnd r}, colGet v k = .ok x → (v.map Rnd.val)[k]? = some x.val := fun {v k x} hh => by
      rw [List.getElem?_map, colGet_some hh]; rfl
    have hm : (obj.eops.mjd[i]).val = ⌊u.val⌋ := by
      have : decide ((obj.eops.mjd[i]).val = (Flt.floor u).val) = true := hit
      exact of_decide_eq_true this
    refine ⟨⟨(obj.eops.mjd[i]).val, px.val, py.val, pu.val, pl.val, pt.val⟩, ⟨(obj.eops.mjd[if i + 1 < obj.eops.mjd.length then i + 1 else i]).val, qx.val, qy.val, qu.val, ql.val, qt.val⟩,
      ⟨i, ⟨?_, val e1, val e2, val e3, val e4, val e5⟩, ?_, hm, ?_⟩, rfl, rfl, rfl, rfl⟩
    · simp only [valT, List.getElem?_map, List.getElem?_eq_getElem hi, Option.map_some]
    · have hl : (valT obj.eops).mjd.length = obj.eops.mjd.length := by simp [valT]
      rw [hl]
      refine ⟨?_, val f1, val f2, val f3, val f4, val f5⟩
      simp only [valT, List.getElem?_map, List.getElem?_eq_getElem hk, Option.map_some]
    · intro j hj hc
      have hj' := hib j hj
      simp only [valT, List.getElem?_map] at hc
      rw [List.getElem?_eq_getElem (by omega)] at hc
      simp only [Option.map_some, Option.some.injEq] at hc
      have : Flt.eq (obj.eops.mjd[j]'(by omega)) (Flt.floor u) = true := decide_eq_true hc
      exact hj' this

omit [Machine] in
theorem between_le {s a b M : ℝ} (h0 : 0 ≤ s) (h1 : s ≤ 1) (ha : |a| ≤ M) (hb : |b| ≤ M) : |between s a b| ≤ M := by
  rw [abs_le] at *
  unfold between
  constructor <;> nlinarith

/-- the interpolation, in any rounding mode, at an instant known to 3.5·10⁻¹¹ days -/
theorem line_ap (h : Rounds53 r) {u : Rnd r} {U : ℝ} (hu : |u.val - U| ≤ 3.5e-11) (hf : ⌊u.val⌋ = ⌊U⌋) {p q M : ℝ} (hp : |p| ≤ M) (hq : |q| ≤ M) (hM : M ≤ 1) :
    Ap ((⟨p⟩ : Rnd r) + ((⟨q⟩ - ⟨p⟩) * (u - Flt.floor u))) (between (Int.fract U) p q) 7.5e-11 M := by
  have hf0 := Int.fract_nonneg U
  have hf1 := Int.fract_lt_one U
  refine ⟨?_, between_le hf0 hf1.le hp hq⟩
  have fx : Ap (u - Flt.floor u) (U - ⌊U⌋) 3.6e-11 1 := by
    have e : |(u.val - ((⌊u.val⌋ : ℤ) : ℝ)) - (U - ⌊U⌋)| ≤ 3.5e-11 := by rw [hf, sub_sub_sub_cancel_right]; exact hu
    have m : |U - ⌊U⌋| ≤ 1 := by rw [Int.self_sub_floor, abs_of_nonneg hf0]; exact hf1.le
    exact ⟨Ap.round h e m (by norm_num), m⟩
  have a : Ap (⟨p⟩ : Rnd r) p 0 1 := ⟨by simp, hp.trans hM⟩
  have b : Ap (⟨q⟩ : Rnd r) q 0 1 := ⟨by simp, hq.trans hM⟩
  have s1 := Ap.sub h b a (D := 6e-16) (N := 2) (by norm_num) (by norm_num)
  have s2 := Ap.mul h s1 fx (D := 7.3e-11) (N := 2) (by norm_num) (by norm_num)
  have s3 := Ap.add h a s2 (D := 7.5e-11) (N := 3) (by norm_num) (by norm_num)
  have e : between (Int.fract U) p q = p + (q - p) * (U - ⌊U⌋) := by
    rw [Int.self_sub_floor]; unfold between; ring
  rw [e]; exact s3.err

theorem pole_ap (h : Rounds53 r) {u : Rnd r} {U : ℝ} (hu : |u.val - U| ≤ 3.5e-11) (hf : ⌊u.val⌋ = ⌊U⌋) {p q : ℝ} (hp : |p| ≤ 1) (hq : |q| ≤ 1) :
    |(((⟨p⟩ : Rnd r) + ((⟨q⟩ - ⟨p⟩) * (u - Flt.floor u))) / arcs).val - between (Int.fract U) p q * arcsec| ≤ 1e-13 := by
  have d := Ap.div h (line_ap h hu hf hp hq le_rfl) (arcs_ap h) (m := 206264) (q := 9e-14) (D := 1e-13) (N := 1) arcs_abs (by norm_num) (by norm_num) (by norm_num) (by norm_num)
  have e : between (Int.fract U) p q * arcsec = between (Int.fract U) p q / arcs := by rw [arcs_R, arcsec, div_div_eq_mul_div]; ring
  rw [e]; exact d.err

omit [Machine] in
/-- exact arithmetic: the matrix of the code is the IAU one -/
theorem j2k_orientation (U : ℝ) (E : EopVal ℝ) : OpNear (j2kProduct U E) (orientation U E) 1e-14 := by
  rw [j2k_R, orientation_eq]
  obtain ⟨k, hk⟩ := gsTime_R (ut1Of U E) (ttOf U E)
  obtain ⟨l, hl⟩ := C89_gmst (ut1Of U E)
  have ht : U + (E.taiUtc + 32.184) / 86400 = ttOf U E := by rw [ttOf]; ring
  have hu : U + E.ut1Utc / 86400 = ut1Of U E := rfl
  have e1 : iauMatrix (centuries (ttOf U E)) (nutationAngles (ttOf U E)).1 (nutationAngles (ttOf U E)).2 (gsTime (ut1Of U E) (ttOf U E)) E.xPole E.yPole
      = (R2 (-E.xPole) * R1 (-E.yPole)) * R3 (gsTime (ut1Of U E) (ttOf U E)) * celestial (centuries (ttOf U E)) := by
    rw [iauMatrix, celestial, nutation_eq]; simp only [Matrix.mul_assoc]
  rw [e1, ht]
  have e2 : R3 (gsTime (ut1Of U E) (ttOf U E)) = R3 (2 * Real.pi * ((gmstSec (ut1Of U E) - 86400 * l) / 86400) +
      (iauNutation (centuries (ttOf U E))).1 * Real.cos (iauObliquity (centuries (ttOf U E)))) := by
    rw [hk, R3_add_turns, nutation_eq, ← R3_add_turns (2 * Real.pi * ((gmstSec (ut1Of U E) - 86400 * l) / 86400) + _) l]; congr 1; ring
  rw [e2]
  have same : ∀ A : Matrix (Fin 3) (Fin 3) ℝ, OpNear A A 0 := fun A x => by simp [len3]
  refine (((same _).mul (frame_lip _ (sidereal U E)).2.2 ((R2_isRot _).mul (R1_isRot _)) (R3_isRot _)).mul (same _)
    (((R2_isRot _).mul (R1_isRot _)).mul (R3_isRot _)) (celestial_isRot _)).mono ?_
  have e3 : 2 * Real.pi * ((gmstSec (ut1Of U E) - 86400 * l) / 86400) + (iauNutation (centuries (ttOf U E))).1 * Real.cos (iauObliquity (centuries (ttOf U E))) - sidereal U E
      = 2 * Real.pi / 86400 * (gmstSec (ut1Of U E) - (iauGmst (centuries (ut1Of U E)) + 86400 * l)) := by
    unfold sidereal; rw [ht, hu]; ring
  rw [e3, abs_mul, abs_of_pos (by have := Real.pi_pos; positivity)]
  have := Real.pi_lt_d2
  have m := mul_le_mul (show 2 * Real.pi / 86400 ≤ 1e-4 by norm_num at *; linarith) hl (abs_nonneg _) (by norm_num)
  norm_num at *
  linarith

omit [Machine] in
theorem RowsNear.op {A : M3 (Rnd r)} {E : Matrix (Fin 3) (Fin 3) ℝ} {d : ℝ} (h : RowsNear A E d) : OpNear (valM A) E (1733 / 1000 * d) := fun x => by
  have hd : 0 ≤ d := (len3_nonneg' _).trans (h 0)
  have l0 := len3_nonneg' x
  have := len3_of_entries (v := (valM A - E) *ᵥ x) (c := d * len3 x) (by positivity) fun i => by
    have := dot_le_len3 ((valM A - E) i) x
    exact this.trans (mul_le_mul_of_nonneg_right (h i) l0)
  linarith

omit [Machine] in
theorem OpNear.trans {A B C : Matrix (Fin 3) (Fin 3) ℝ} {d e : ℝ} (h : OpNear A B d) (h' : OpNear B C e) : OpNear A C (d + e) := fun x => by
  have s : (A - C) *ᵥ x = (A - B) *ᵥ x + (B - C) *ᵥ x := by rw [← add_mulVec, sub_add_sub_cancel]
  rw [s]
  refine (len3_add _ _).trans ?_
  linarith [h x, h' x]

omit [Machine] in
theorem floor_mjd (q : ℤ) (k : ℕ) : ⌊(40587 : ℝ) + (q : ℝ) / (k : ℝ)⌋ = 40587 + q / (k : ℤ) := by
  have := Int.floor_intCast_add (R := ℝ) 40587 ((q : ℝ) / (k : ℝ))
  rw [Int.floor_div_natCast, Int.floor_intCast] at this
  simpa using this

/-- at the whole second before the time stamp -/
theorem frame_second (h : Rounds53 r) (obj o : Obj (Rnd r)) (hR : obj.eops.Rect) (hU : UsualTable (valT obj.eops)) (t : Int) (h0 : 0 ≤ t) (h1 : t < 4102444800000000)
    (hdec : ¬((utcDate t).month = 12 ∧ (utcDate t).day = 31)) (f : List Char) (R0 M : M3 (Rnd r)) (hs : frameAt obj t f R0 = .ok (true, M, o)) :
    ∃ pre post, RowsOf (valT obj.eops) (40587 + t / 1000000 / 86400) pre post ∧
      OpNear (valM M) (orientation (40587 + ((t / 1000000 : Int) : ℝ) / 86400) (eopAt (40587 + ((t / 1000000 : Int) : ℝ) / 86400) pre post)) 1.25e-9 := by
  have near : Near t := ⟨by omega, by omega⟩
  obtain ⟨u, hu, hu1, hu2⟩ := mjd_core h t h0 near hdec (Flt.lit 0)
  unfold frameAt at hs
  unfold mjdOf at hu
  cases hw : (unixTimestampToDateVec t [] : Out (Bool × List (Rnd r))) with
  | error s => rw [hw] at hs; cases hs
  | ok w =>
    rw [hw] at hs hu
    simp only [osimp] at hs hu
    obtain ⟨u', e, g1, g2, rfl⟩ := j2k_success_any obj o w.2 f R0 M hs
    rw [hu] at g1
    simp only [Except.ok.injEq, Prod.mk.injEq, true_and] at g1
    subst g1
    obtain ⟨pre, post, rows, ex, ey, eu, et⟩ := eop_rnd obj hR u e g2
    rw [hu2] at rows
    refine ⟨pre, post, rows, ?_⟩
    obtain ⟨i, ri, rk, -⟩ := rows
    obtain ⟨a1, a2, a3, a4⟩ := hU _ _ ri
    obtain ⟨b1, b2, b3, -⟩ := hU _ _ rk
    have q0 : (0 : ℤ) ≤ t / 1000000 := by omega
    have q1 : t / 1000000 < 4102444800 := by omega
    have q0' : (0 : ℝ) ≤ ((t / 1000000 : Int) : ℝ) := by exact_mod_cast q0
    have q1' : ((t / 1000000 : Int) : ℝ) ≤ 4102444800 := by exact_mod_cast q1.le
    have fl : ⌊40587 + ((t / 1000000 : Int) : ℝ) / 86400⌋ = 40587 + t / 1000000 / 86400 := by
      simpa using floor_mjd (t / 1000000) 86400
    have hfl : ⌊u.val⌋ = ⌊40587 + ((t / 1000000 : Int) : ℝ) / 86400⌋ := by rw [fl, hu2]
    have hu1' : |u.val - (40587 + ((t / 1000000 : Int) : ℝ) / 86400)| ≤ 3.5e-11 := hu1.trans (by norm_num)
    have hUr : |40587 + ((t / 1000000 : Int) : ℝ) / 86400 - 51544.5| ≤ 36525 := by
      rw [abs_le]; constructor <;> norm_num <;> linarith
    generalize (40587 : ℝ) + ((t / 1000000 : Int) : ℝ) / 86400 = U at *
    have fr0 := Int.fract_nonneg U; have fr1 := (Int.fract_lt_one U).le
    have acc := j2k_accuracy_gen h u e U (eopAt U pre post) (δ := 3.5e-11) (by norm_num) hu1' hUr et a4
      (by rw [eu]; exact (line_ap h hu1' hfl a3 b3 (by norm_num)).err.trans (by norm_num))
      ((between_le fr0 fr1 a3 b3).trans (by norm_num))
      (by rw [ex]; exact pole_ap h hu1' hfl a1 b1) (by rw [ey]; exact pole_ap h hu1' hfl a2 b2)
    exact (acc.op.trans (j2k_orientation U _)).mono (by norm_num)

omit [Machine] in
/-- the parameters change little within a second -/
theorem eopAt_rate {t : Eops ℝ} (hU : UsualTable t) {D : ℤ} {pre post : EopRow ℝ} (hr : RowsOf t D pre post) {u d : ℝ} (hd : 0 ≤ d) (hf : ⌊u + d⌋ = ⌊u⌋) :
    (eopAt (u + d) pre post).taiUtc = (eopAt u pre post).taiUtc ∧ |(eopAt u pre post).taiUtc| ≤ 100 ∧ |(eopAt u pre post).ut1Utc| ≤ 1 ∧
    |(eopAt (u + d) pre post).ut1Utc - (eopAt u pre post).ut1Utc| ≤ 2 * d ∧ |(eopAt (u + d) pre post).xPole - (eopAt u pre post).xPole| ≤ 1e-5 * d ∧
    |(eopAt (u + d) pre post).yPole - (eopAt u pre post).yPole| ≤ 1e-5 * d := by
  obtain ⟨i, ri, rk, -⟩ := hr
  obtain ⟨a1, a2, a3, a4⟩ := hU _ _ ri
  obtain ⟨b1, b2, b3, -⟩ := hU _ _ rk
  have ar := arcsec_bd
  have fr : Int.fract (u + d) = Int.fract u + d := by rw [Int.fract, Int.fract, hf]; ring
  have df : ∀ a b : ℝ, between (Int.fract (u + d)) a b - between (Int.fract u) a b = (b - a) * d := fun a b => by rw [fr]; unfold between; ring
  have bd : ∀ {a b M : ℝ}, |a| ≤ M → |b| ≤ M → |(b - a) * d| ≤ 2 * M * d := fun {a b M} ha hb => by
    rw [abs_mul, abs_of_nonneg hd]
    exact mul_le_mul_of_nonneg_right ((abs_sub _ _).trans (by linarith)) hd
  have pole : ∀ {a b : ℝ}, |a| ≤ 1 → |b| ≤ 1 → |between (Int.fract (u + d)) a b * arcsec - between (Int.fract u) a b * arcsec| ≤ 1e-5 * d := fun {a b} ha hb => by
    rw [← sub_mul, df, abs_mul, abs_of_pos ar.1]
    have := mul_le_mul (bd ha hb) ar.2.le ar.1.le (by positivity)
    norm_num at *
    linarith
  refine ⟨rfl, a4, (between_le (Int.fract_nonneg u) (Int.fract_lt_one u).le a3 b3).trans (by norm_num), ?_, pole a1 b1, pole a2 b2⟩
  show |between _ _ _ - between _ _ _| ≤ _
  rw [df]
  exact (bd a3 b3).trans (mul_le_mul_of_nonneg_right (by norm_num) hd)

omit [Machine] in
/-- both bounds, as a statement about instants -/
theorem stamp_core {t : Eops ℝ} (hU : UsualTable t) {D : ℤ} {pre post : EopRow ℝ} (rows : RowsOf t D pre post) {A : Matrix (Fin 3) (Fin 3) ℝ} {U d : ℝ} (hd0 : 0 ≤ d) (hd1 : d ≤ 1.2e-5)
    (hUr : |U - 51544.5| ≤ 36525) (hf : ⌊U + d⌋ = ⌊U⌋) (hn : OpNear A (orientation U (eopAt U pre post)) 1.25e-9) :
    OpNear A (orientation (U + d) (eopAt (U + d) pre post)) (7.3e-11 * (86400000000 * d) + 1.3e-9) ∧
      ∃ x, len3 x = 1 ∧ 7.28e-11 * (86400000000 * d) - 1.3e-9 ≤ len3 ((A - orientation (U + d) (eopAt (U + d) pre post)) *ᵥ x) := by
  obtain ⟨c1, c2, c3, c4, c5, c6⟩ := eopAt_rate hU rows hd0 hf
  obtain ⟨ra, x, x1, x2⟩ := orientation_rate U d _ _ hd0 hd1 hUr c1 c2 c3 c4 c5 c6
  refine ⟨(hn.trans ra).mono (by norm_num; linarith), x, x1, ?_⟩
  have s : (orientation U (eopAt U pre post) - orientation (U + d) (eopAt (U + d) pre post)) *ᵥ x
      = (A - orientation (U + d) (eopAt (U + d) pre post)) *ᵥ x + (orientation U (eopAt U pre post) - A) *ᵥ x := by
    rw [← add_mulVec]; congr 1; abel
  rw [s] at x2
  have n1 := len3_add ((A - orientation (U + d) (eopAt (U + d) pre post)) *ᵥ x) ((orientation U (eopAt U pre post) - A) *ᵥ x)
  have n2 := hn.symm x
  rw [x1] at n2
  norm_num at n2 x2 ⊢
  linarith

/-- both bounds -/
theorem frame_stamp (h : Rounds53 r) (obj o : Obj (Rnd r)) (hR : obj.eops.Rect) (hU : UsualTable (valT obj.eops)) (t : Int) (h0 : 0 ≤ t) (h1 : t < 4102444800000000)
    (hdec : ¬((utcDate t).month = 12 ∧ (utcDate t).day = 31)) (f : List Char) (R0 M : M3 (Rnd r)) (hs : frameAt obj t f R0 = .ok (true, M, o)) :
    ∃ pre post, RowsOf (valT obj.eops) (40587 + t / 86400000000) pre post ∧
      OpNear (valM M) (orientation (40587 + (t : ℝ) / 86400000000) (eopAt (40587 + (t : ℝ) / 86400000000) pre post)) (7.3e-11 * ((t % 1000000 : Int) : ℝ) + 1.3e-9) ∧
      ∃ x, len3 x = 1 ∧ 7.28e-11 * ((t % 1000000 : Int) : ℝ) - 1.3e-9 ≤
        len3 ((valM M - orientation (40587 + (t : ℝ) / 86400000000) (eopAt (40587 + (t : ℝ) / 86400000000) pre post)) *ᵥ x) := by
  obtain ⟨pre, post, rows, hn⟩ := frame_second h obj o hR hU t h0 h1 hdec f R0 M hs
  have hday : t / 1000000 / 86400 = t / 86400000000 := by omega
  rw [hday] at rows
  refine ⟨pre, post, rows, ?_⟩
  have q0 : (0 : ℤ) ≤ t / 1000000 := by omega
  have q1 : t / 1000000 < 4102444800 := by omega
  have q0' : (0 : ℝ) ≤ ((t / 1000000 : Int) : ℝ) := by exact_mod_cast q0
  have q1' : ((t / 1000000 : Int) : ℝ) ≤ 4102444800 := by exact_mod_cast q1.le
  have m0 : (0 : ℝ) ≤ ((t % 1000000 : Int) : ℝ) := by exact_mod_cast (by omega : 0 ≤ t % 1000000)
  have m1 : ((t % 1000000 : Int) : ℝ) ≤ 999999 := by exact_mod_cast (by omega : t % 1000000 ≤ 999999)
  have ht : (t : ℝ) = 1000000 * ((t / 1000000 : Int) : ℝ) + ((t % 1000000 : Int) : ℝ) := by exact_mod_cast (by omega : t = 1000000 * (t / 1000000) + t % 1000000)
  have hUd : (40587 : ℝ) + (t : ℝ) / 86400000000 = 40587 + ((t / 1000000 : Int) : ℝ) / 86400 + ((t % 1000000 : Int) : ℝ) / 86400000000 := by rw [ht]; ring
  have hUr : |40587 + ((t / 1000000 : Int) : ℝ) / 86400 - 51544.5| ≤ 36525 := by
    rw [abs_le]; constructor <;> norm_num <;> linarith
  have fl1 := floor_mjd (t / 1000000) 86400
  have fl2 := floor_mjd t 86400000000
  have hf : ⌊40587 + ((t / 1000000 : Int) : ℝ) / 86400 + ((t % 1000000 : Int) : ℝ) / 86400000000⌋ = ⌊40587 + ((t / 1000000 : Int) : ℝ) / 86400⌋ := by
    rw [← hUd]
    push_cast at fl1 fl2
    rw [fl1, fl2, hday]
  have hd0 : (0 : ℝ) ≤ ((t % 1000000 : Int) : ℝ) / 86400000000 := by positivity
  have hd1 : ((t % 1000000 : Int) : ℝ) / 86400000000 ≤ 1.2e-5 := by norm_num; linarith
  have hds : 86400000000 * (((t % 1000000 : Int) : ℝ) / 86400000000) = ((t % 1000000 : Int) : ℝ) := by ring
  have key := stamp_core hU rows hd0 hd1 hUr hf hn
  rw [hds, ← hUd] at key
  exact key

/-- C119, the part that holds. Double precision, any rounding mode, 1970 to 2100, not on a 31 December: from the time stamp (microseconds) to the matrix, the
result applied to any position is off from the IAU orientation at the instant of the time stamp by at most 1.3·10⁻⁹ of its length (8 mm on the ground) plus
7.3·10⁻¹¹ for each microsecond since the last whole second. At whole seconds only the first term is left. -/
theorem C119_orientation_partial (h : Rounds53 r) (obj o : Obj (Rnd r)) (hR : obj.eops.Rect) (hU : UsualTable (valT obj.eops)) (t : Int) (h0 : 0 ≤ t) (h1 : t < 4102444800000000)
    (hdec : ¬((utcDate t).month = 12 ∧ (utcDate t).day = 31)) (f : List Char) (R0 M : M3 (Rnd r)) (hs : frameAt obj t f R0 = .ok (true, M, o)) :
    ∃ pre post, RowsOf (valT obj.eops) (40587 + t / 86400000000) pre post ∧
      ∀ x, len3 (valM M *ᵥ x - orientation (40587 + (t : ℝ) / 86400000000) (eopAt (40587 + (t : ℝ) / 86400000000) pre post) *ᵥ x)
        ≤ (7.3e-11 * ((t % 1000000 : Int) : ℝ) + 1.3e-9) * len3 x := by
  obtain ⟨pre, post, a, b, -⟩ := frame_stamp h obj o hR hU t h0 h1 hdec f R0 M hs
  exact ⟨pre, post, a, fun x => by rw [← sub_mulVec]; exact b x⟩

/-- C119 fails between whole seconds: the fraction of the second is dropped, so for every such time stamp there is a direction whose image is off by what the
Earth turns in that fraction: 7.28·10⁻¹¹ for each microsecond, less the rounding errors; half a second is 232 m on the ground. -/
theorem C119_fraction_fails (h : Rounds53 r) (obj o : Obj (Rnd r)) (hR : obj.eops.Rect) (hU : UsualTable (valT obj.eops)) (t : Int) (h0 : 0 ≤ t) (h1 : t < 4102444800000000)
    (hdec : ¬((utcDate t).month = 12 ∧ (utcDate t).day = 31)) (f : List Char) (R0 M : M3 (Rnd r)) (hs : frameAt obj t f R0 = .ok (true, M, o)) :
    ∃ pre post, RowsOf (valT obj.eops) (40587 + t / 86400000000) pre post ∧
      ∃ x, len3 x = 1 ∧ 7.28e-11 * ((t % 1000000 : Int) : ℝ) - 1.3e-9 ≤
        len3 (valM M *ᵥ x - orientation (40587 + (t : ℝ) / 86400000000) (eopAt (40587 + (t : ℝ) / 86400000000) pre post) *ᵥ x) := by
  obtain ⟨pre, post, a, -, x, b, c⟩ := frame_stamp h obj o hR hU t h0 h1 hdec f R0 M hs
  exact ⟨pre, post, a, x, b, by rw [← sub_mulVec]; exact c⟩

/-- a lookup on a day of the table succeeds -/
theorem eop_rnd_some (obj : Obj (Rnd r)) (hR : obj.eops.Rect) (hset : obj.eopsSet = true) (u : Rnd r) (hm : (⌊u.val⌋ : ℝ) ∈ (valT obj.eops).mjd) :
    ∃ e, getCurrentEop obj u = .ok (some e) := by
  unfold getCurrentEop
  rw [if_neg (by simp [hset])]
  simp only
  cases hf : obj.eops.mjd.findIdx? (fun m => Flt.eq m (Flt.floor u)) with
  | none =>
    exfalso
    obtain ⟨m, h1, h2⟩ := List.mem_map.1 hm
    have := List.findIdx?_eq_none_iff.1 hf m h1
    exact absurd (show Flt.eq m (Flt.floor u) = true from decide_eq_true h2) (by simp [this])
  | some i =>
    obtain ⟨hi, -, -⟩ := List.findIdx?_eq_some_iff_getElem.1 hf
    obtain ⟨r1, r2, r3, r4, r5⟩ := hR
    have gi : ∀ (v : List (Rnd r)) (k : Nat), k < v.length → ∃ x, colGet v k = .ok x := fun v k hk => ⟨v[k], by simp [colGet, hk]⟩
    have hk : (if i = obj.eops.mjd.length - 1 then i else i + 1) < obj.eops.mjd.length := by split_ifs <;> omega
    obtain ⟨px, e1⟩ := gi obj.eops.xPole i (by omega)
    obtain ⟨py, e2⟩ := gi obj.eops.yPole i (by omega)
    obtain ⟨pu, e3⟩ := gi obj.eops.ut1Utc i (by omega)
    obtain ⟨pl, e4⟩ := gi obj.eops.lod i (by omega)
    obtain ⟨pt, e5⟩ := gi obj.eops.taiUtc i (by omega)
    obtain ⟨qx, f1⟩ := gi obj.eops.xPole _ (hk.trans_le r1.ge)
    obtain ⟨qy, f2⟩ := gi obj.eops.yPole _ (hk.trans_le r2.ge)
    obtain ⟨qu, f3⟩ := gi obj.eops.ut1Utc _ (hk.trans_le r3.ge)
    obtain ⟨ql, f4⟩ := gi obj.eops.lod _ (hk.trans_le r4.ge)
    simp only [e1, e2, e3, e4, e5, osimp, f1, f2, f3, f4]
    exact ⟨_, rfl⟩

/-- C119: with a table loaded that has the day of the time stamp, the matrix is computed. -/
theorem C119_succeeds (h : Rounds53 r) (obj : Obj (Rnd r)) (hR : obj.eops.Rect) (hset : obj.eopsSet = true) (t : Int) (h0 : 0 ≤ t) (h1 : t < 4102444800000000)
    (hdec : ¬((utcDate t).month = 12 ∧ (utcDate t).day = 31)) (hday : ((40587 + t / 86400000000 : Int) : ℝ) ∈ (valT obj.eops).mjd) (f : List Char) (R0 : M3 (Rnd r)) :
    ∃ M, frameAt obj t f R0 = .ok (true, M, obj) := by
  obtain ⟨u, hu, -, hu2⟩ := mjd_core h t h0 ⟨by omega, by omega⟩ hdec (Flt.lit 0)
  obtain ⟨e, he⟩ := eop_rnd_some obj hR hset u (by rw [hu2]; convert hday using 3; omega)
  unfold frameAt
  unfold mjdOf at hu
  cases hw : (unixTimestampToDateVec t [] : Out (Bool × List (Rnd r))) with
  | error s => rw [hw] at hu; cases hu
  | ok w =>
    rw [hw] at hu
    simp only [osimp] at hu ⊢
    refine ⟨j2kProduct u e, ?_⟩
    rw [computeRJ2k2Ecef, hu]
    have hl : w.2.length = 6 := by
      obtain ⟨hh, mm, ss, -, -, -, -, w', e', f'⟩ := C05_date_exact h t h0 ⟨by omega, by omega⟩ hdec []
      rw [hw] at e'
      obtain rfl := Except.ok.inj e'
      simpa using congrArg List.length f'
    simp [osimp, he, hset, hl]

/-- non-vacuity of C119: half a second after midnight of 1 March 1970, rounding to nearest, a table with that day -/
example (R0 : M3 (Rnd nearest)) : ∃ (obj : Obj (Rnd nearest)) (M : M3 (Rnd nearest)), obj.eops.Rect ∧ UsualTable (valT obj.eops) ∧
    ¬((utcDate 5097600500000).month = 12 ∧ (utcDate 5097600500000).day = 31) ∧ frameAt obj 5097600500000 [] R0 = .ok (true, M, obj) := by
  have hR : (⟨[whole 40646], [⟨0.04⟩], [⟨0.38⟩], [⟨0.355⟩], [⟨0.001⟩], [⟨8⟩]⟩ : Eops (Rnd nearest)).Rect := by simp [Eops.Rect]
  have hd : ¬((utcDate 5097600500000).month = 12 ∧ (utcDate 5097600500000).day = 31) := by decide +kernel
  obtain ⟨M, hM⟩ := C119_succeeds nearest_rounds ⟨true, _⟩ hR rfl 5097600500000 (by norm_num) (by norm_num) hd (by simp [valT, whole_val]) [] R0
  refine ⟨_, M, hR, ?_, hd, hM⟩
  rintro i row ⟨-, a, b, c, -, d⟩
  cases i with
  | zero =>
    simp [valT] at a b c d
    rw [← a, ← b, ← c, ← d]
    norm_num [abs_of_pos]
  | succ i => simp [valT] at a

end NavFuse.Props
