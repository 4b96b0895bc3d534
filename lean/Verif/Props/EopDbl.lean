import Verif.Lemmas.RoundLerp
import Verif.Props.Eop
import Mathlib.Analysis.Real.Pi.Bounds

/-! # Earth orientation parameters in double precision: C143 -/

namespace NavFuse.Props
open Spec Rotations
variable [Machine] {r : ℝ → ℝ}

/-- a loaded table with these rows -/
def dTable (r : ℝ → ℝ) (rows : List (EopRow ℝ)) : Obj (Dbl r) :=
  ⟨true, ⟨rows.map (.fin ·.mjd), rows.map (.fin ·.xPole), rows.map (.fin ·.yPole), rows.map (.fin ·.ut1Utc), rows.map (.fin ·.lod), rows.map (.fin ·.taiUtc)⟩⟩

/-- the row used as the end of the interval: the next one, if there is one -/
def nextRow (rows : List (EopRow ℝ)) (i : ℕ) : ℕ := if i + 1 < rows.length then i + 1 else i

/-- `p` is the first row of the day of the time `t`, and `q` the row after it -/
def Rows (rows : List (EopRow ℝ)) (t : ℝ) (i : ℕ) (p q : EopRow ℝ) : Prop :=
  rows[i]? = some p ∧ p.mjd = ⌊t⌋ ∧ (∀ j < i, ∀ s, rows[j]? = some s → s.mjd ≠ ⌊t⌋) ∧ rows[nextRow rows i]? = some q

/-- all entries that are interpolated are doubles of magnitude up to `M` -/
def RowOk (M : ℝ) (p : EopRow ℝ) : Prop :=
  (IsDouble p.xPole ∧ |p.xPole| ≤ M) ∧ (IsDouble p.yPole ∧ |p.yPole| ≤ M) ∧ (IsDouble p.ut1Utc ∧ |p.ut1Utc| ≤ M) ∧ (IsDouble p.lod ∧ |p.lod| ≤ M)

/-- the number of arcseconds in a radian as computed -/
noncomputable def rArcs (r : ℝ → ℝ) : ℝ := r (648000 / r Real.pi)

omit [Machine] in
theorem rd_ok (h : Rounds53 r) {v : ℝ} (hv : |v| ≤ 1e150) : |r v| < 2 ^ 1024 := by
  have := abs_le.1 (h.rel_le hv (by norm_num))
  obtain ⟨v1, v2⟩ := abs_le.1 hv
  refine lt_of_le_of_lt (abs_le.2 ⟨?_, ?_⟩) Dbl.big
  · norm_num at *; linarith
  · norm_num at *; linarith

omit [Machine] in
theorem rArcs_bd (h : Rounds53 r) : |rArcs r - 648000 / Real.pi| ≤ 1.3e-10 ∧ 206264 ≤ rArcs r := by
  have p1 := Real.pi_gt_d6
  have p2 := Real.pi_lt_d6
  obtain ⟨a1, a2⟩ := abs_le.1 (h.rel_le (x := Real.pi) (M := 3.141593) (by rw [abs_of_pos Real.pi_pos]; linarith) (by norm_num))
  set ρ := r Real.pi with hρ
  have ρ1 : 3.14159 ≤ ρ := by linarith
  have e : 648000 / ρ - 648000 / Real.pi = 648000 * (Real.pi - ρ) / (ρ * Real.pi) := by field_simp
  have hpr : 9.869 ≤ ρ * Real.pi := by nlinarith
  have b1 : |648000 / ρ - 648000 / Real.pi| ≤ 4.6e-11 := by
    rw [e, abs_div, abs_mul, abs_of_pos (by linarith : 0 < ρ * Real.pi), div_le_iff₀ (by linarith)]
    have : |Real.pi - ρ| ≤ 3.141593 / 2 ^ 52 := by rw [abs_sub_comm]; exact abs_le.2 ⟨a1, a2⟩
    rw [abs_of_pos (by norm_num : (0 : ℝ) < 648000)]
    have h2 : 648000 * |Real.pi - ρ| ≤ 648000 * (3.141593 / 2 ^ 52) := by linarith
    refine h2.trans ?_
    have : (4.6e-11 : ℝ) * 9.869 ≤ 4.6e-11 * (ρ * Real.pi) := by linarith
    refine le_trans ?_ this
    norm_num
  have q1 : 648000 / Real.pi ≤ 206265 := by rw [div_le_iff₀ Real.pi_pos]; linarith
  have q2 : 206264.7 ≤ 648000 / Real.pi := by rw [le_div_iff₀ Real.pi_pos]; linarith
  obtain ⟨b2, b3⟩ := abs_le.1 b1
  obtain ⟨c1, c2⟩ := abs_le.1 (h.rel_le (x := 648000 / ρ) (M := 206266) (by rw [abs_le]; constructor <;> linarith) (by norm_num))
  rw [rArcs, ← hρ]
  refine ⟨abs_le.2 ⟨?_, ?_⟩, ?_⟩ <;> norm_num at * <;> linarith

theorem arcs_dbl (h : Rounds53 r) : (arcs : Dbl r) = .fin (rArcs r) := by
  have l1 : (Flt.lit 3600 : Dbl r) = .fin 3600 := by
    have e : r 3600 = 3600 := by have := h.int 3600 (by norm_num); simpa using this
    show Dbl.rd r (.fin ((3600 : ℚ) : ℝ)) = _
    rw [show ((3600 : ℚ) : ℝ) = 3600 by norm_num, Dbl.rd_fin (rd_ok h (by norm_num)), e]
  have l2 : (Flt.lit 180 : Dbl r) = .fin 180 := by
    have e : r 180 = 180 := by have := h.int 180 (by norm_num); simpa using this
    show Dbl.rd r (.fin ((180 : ℚ) : ℝ)) = _
    rw [show ((180 : ℚ) : ℝ) = 180 by norm_num, Dbl.rd_fin (rd_ok h (by norm_num)), e]
  have l3 : (Flt.pi : Dbl r) = .fin (r Real.pi) := Dbl.rd_fin (rd_ok h (by rw [abs_of_pos Real.pi_pos]; linarith [Real.pi_le_four]))
  have l4 : (Dbl.fin 3600 * Dbl.fin 180 : Dbl r) = .fin 648000 := by
    have e : r 648000 = 648000 := by have := h.int 648000 (by norm_num); simpa using this
    show Dbl.rd r (.fin (3600 * 180)) = _
    rw [show (3600 : ℝ) * 180 = 648000 by norm_num, Dbl.rd_fin (rd_ok h (by norm_num)), e]
  have hp := abs_le.1 (h.rel_le (x := Real.pi) (M := 4) (by rw [abs_of_pos Real.pi_pos]; linarith [Real.pi_le_four]) (by norm_num))
  have hp3 : 3 ≤ r Real.pi := by linarith [Real.pi_gt_d2]
  rw [arcs, l1, l2, l3, l4]
  show Dbl.rd r (XR.fin 648000 / XR.fin (r Real.pi)) = _
  rw [XR.fin_div _ _ (by linarith), Dbl.rd_fin (rd_ok h _), rArcs]
  rw [abs_of_nonneg (by positivity), div_le_iff₀ (by linarith)]
  linarith

omit [Machine] in
theorem interp_dbl (h : Rounds53 r) {f a b : ℝ} (ha : |a| ≤ 1e100) (hb : |b| ≤ 1e100) (f0 : 0 ≤ f) (f1 : f ≤ 1) :
    (.fin a + (.fin b - .fin a) * .fin f : Dbl r) = .fin (lerp r f a b) ∧ |lerp r f a b| ≤ 2e100 := by
  obtain ⟨a1, a2⟩ := abs_le.1 ha
  obtain ⟨b1, b2⟩ := abs_le.1 hb
  have hba : |b - a| ≤ 2e100 := abs_le.2 ⟨by linarith, by linarith⟩
  have e1 : (.fin b - .fin a : Dbl r) = .fin (r (b - a)) := by
    show Dbl.rd r (XR.fin b - XR.fin a) = _
    rw [XR.fin_sub]; exact Dbl.rd_fin (rd_ok h (hba.trans (by norm_num)))
  have hd : |r (b - a)| ≤ 3e100 := by
    obtain ⟨d1, d2⟩ := abs_le.1 hba
    obtain ⟨c1, c2⟩ := abs_le.1 (h.rel_le hba (by norm_num))
    rw [abs_le]; norm_num at *; constructor <;> linarith
  have hdf : |r (b - a) * f| ≤ 3e100 := by
    rw [abs_mul, abs_of_nonneg f0]; nlinarith [abs_nonneg (r (b - a))]
  have e2 : (.fin (r (b - a)) * .fin f : Dbl r) = .fin (r (r (b - a) * f)) := Dbl.rd_fin (rd_ok h (hdf.trans (by norm_num)))
  have ht : |r (r (b - a) * f)| ≤ 4e100 := by
    obtain ⟨d1, d2⟩ := abs_le.1 hdf
    obtain ⟨c1, c2⟩ := abs_le.1 (h.rel_le hdf (by norm_num))
    rw [abs_le]; norm_num at *; constructor <;> linarith
  obtain ⟨t1, t2⟩ := abs_le.1 ht
  have e3 : (.fin a + .fin (r (r (b - a) * f)) : Dbl r) = .fin (lerp r f a b) :=
    Dbl.rd_fin (rd_ok h ((abs_le (b := 5e100)).2 ⟨by linarith, by linarith⟩ |>.trans (by norm_num)))
  refine ⟨by rw [e1, e2, e3], ?_⟩
  have k := abs_le.1 (lerp_err h (M := 1e100) (by norm_num) ha hb f0 f1)
  have l1 : (1 - f) * a + f * b ≤ 1e100 := by nlinarith
  have l2 : -1e100 ≤ (1 - f) * a + f * b := by nlinarith
  rw [abs_le]; constructor <;> norm_num at * <;> linarith

omit [Machine] in
theorem pole_dbl (h : Rounds53 r) {v : ℝ} (hv : |v| ≤ 2e100) : (.fin v / .fin (rArcs r) : Dbl r) = .fin (r (v / rArcs r)) := by
  have hA := (rArcs_bd h).2
  show Dbl.rd r (XR.fin v / XR.fin (rArcs r)) = _
  rw [XR.fin_div _ _ (by linarith)]
  refine Dbl.rd_fin (rd_ok h ?_)
  rw [abs_div, abs_of_pos (by linarith : 0 < rArcs r), div_le_iff₀ (by linarith)]
  have := abs_nonneg v
  norm_num at *
  linarith

/-- what a lookup computes -/
theorem lookup_dbl (h : Rounds53 r) {rows : List (EopRow ℝ)} {t : ℝ} (ht : IsDouble t) (h4 : 4 ≤ t) {i : ℕ} {p q : EopRow ℝ} (hr : Rows rows t i p q) {M : ℝ}
    (hM : M ≤ 1e100) (hp : RowOk M p) (hq : RowOk M q) :
    getCurrentEop (dTable r rows) (.fin t) = .ok (some {
      xPole := .fin (r (lerp r (Int.fract t) p.xPole q.xPole / rArcs r))
      yPole := .fin (r (lerp r (Int.fract t) p.yPole q.yPole / rArcs r))
      ut1Utc := .fin (lerp r (Int.fract t) p.ut1Utc q.ut1Utc)
      lod := .fin (lerp r (Int.fract t) p.lod q.lod)
      taiUtc := .fin p.taiUtc }) := by
  obtain ⟨r1, r2, r3, r4⟩ := hr
  have hlt : i < rows.length := (List.getElem?_eq_some_iff.1 r1).1
  have hfl : (Flt.floor (.fin t : Dbl r)) = .fin (⌊t⌋ : ℝ) := rfl
  have heq : ∀ a b : ℝ, Flt.eq (.fin a : Dbl r) (.fin b) = true ↔ a = b := fun a b => R_eq a b
  have hfind : (dTable r rows).eops.mjd.findIdx? (fun m => Flt.eq m (Flt.floor (.fin t : Dbl r))) = some i := by
    rw [List.findIdx?_eq_some_iff_getElem]
    refine ⟨by simpa [dTable] using hlt, ?_, fun j hj => ?_⟩
    · have e : rows[i] = p := (List.getElem?_eq_some_iff.1 r1).2
      simp only [dTable, List.getElem_map, hfl, heq, e, r2]
    · simp only [dTable, List.getElem_map, hfl, heq]
      exact r3 j hj _ (List.getElem?_eq_getElem (by omega))
  have hn : (if i = (dTable r rows).eops.mjd.length - 1 then i else i + 1) = nextRow rows i := by
    have : (dTable r rows).eops.mjd.length = rows.length := by simp [dTable]
    rw [this, nextRow]; split_ifs <;> omega
  have col : ∀ (g : EopRow ℝ → ℝ) (k : ℕ) (s : EopRow ℝ), rows[k]? = some s → colGet (rows.map fun s => (.fin (g s) : Dbl r)) k = .ok (.fin (g s)) := by
    intro g k s hs
    simp [colGet, hs]
  have ff : (.fin t - .fin (⌊t⌋ : ℝ) : Dbl r) = .fin (Int.fract t) := by
    show Dbl.rd r (XR.fin t - XR.fin (⌊t⌋ : ℝ)) = _
    rw [XR.fin_sub, show t - (⌊t⌋ : ℝ) = Int.fract t from rfl, Dbl.rd_fin (rd_ok h _), (fract_double ht h4).1.round h]
    rw [abs_of_nonneg (Int.fract_nonneg t)]
    exact (Int.fract_lt_one t).le.trans (by norm_num)
  have f0 := Int.fract_nonneg t
  have f1 := (Int.fract_lt_one t).le
  obtain ⟨⟨-, px⟩, ⟨-, py⟩, ⟨-, pu⟩, -, pl⟩ := hp
  obtain ⟨⟨-, qx⟩, ⟨-, qy⟩, ⟨-, qu⟩, -, ql⟩ := hq
  have ix := interp_dbl h (px.trans hM) (qx.trans hM) f0 f1
  have iy := interp_dbl h (py.trans hM) (qy.trans hM) f0 f1
  have iu := interp_dbl h (pu.trans hM) (qu.trans hM) f0 f1
  have il := interp_dbl h (pl.trans hM) (ql.trans hM) f0 f1
  simp only [getCurrentEop, hfind, hn]
  rw [if_neg (by simp [dTable])]
  simp only [dTable, col _ _ _ r1, col _ _ _ r4, osimp, hfl, ff, ix.1, iy.1, iu.1, il.1, arcs_dbl h, pole_dbl h ix.2, pole_dbl h iy.2]

omit [Machine] in
theorem rows_found {rows : List (EopRow ℝ)} {t : ℝ} (hd : ∃ s ∈ rows, s.mjd = ⌊t⌋) : ∃ i p q, Rows rows t i p q := by
  classical
  have hex : ∃ i : ℕ, ∃ s, rows[i]? = some s ∧ s.mjd = ⌊t⌋ := by
    obtain ⟨s, hs, e⟩ := hd
    obtain ⟨i, hi, e'⟩ := List.getElem_of_mem hs
    exact ⟨i, s, by rw [List.getElem?_eq_getElem hi, e'], e⟩
  obtain ⟨p, p1, p2⟩ := Nat.find_spec hex
  have hlt : Nat.find hex < rows.length := (List.getElem?_eq_some_iff.1 p1).1
  have hn : nextRow rows (Nat.find hex) < rows.length := by rw [nextRow]; split_ifs <;> omega
  exact ⟨_, p, rows[nextRow rows (Nat.find hex)], p1, p2, fun j hj s hs e => Nat.find_min hex hj ⟨s, hs, e⟩, List.getElem?_eq_getElem hn⟩

/-- a lookup of a day that is not in the table returns false -/
theorem lookup_none (rows : List (EopRow ℝ)) (t : ℝ) (hd : ¬∃ s ∈ rows, s.mjd = ⌊t⌋) : getCurrentEop (dTable r rows) (.fin t) = .ok none := by
  have : (dTable r rows).eops.mjd.findIdx? (fun m => Flt.eq m (Flt.floor (.fin t : Dbl r))) = none := by
    rw [List.findIdx?_eq_none_iff]
    intro x hx
    simp only [dTable, List.mem_map] at hx
    obtain ⟨s, hs, rfl⟩ := hx
    rw [← Bool.not_eq_true]
    exact fun e => hd ⟨s, hs, (R_eq _ _).1 e⟩
  simp only [getCurrentEop, this]
  split_ifs <;> rfl

omit [Machine] in
theorem pole_err (h : Rounds53 r) {v w M : ℝ} (hM : 1e-40 ≤ M) (hw : |w| ≤ M) (hv : |v - w| ≤ 1.4e-15 * M) : |r (v / rArcs r) - w * (Real.pi / 648000)| ≤ 1.3e-20 * M := by
  obtain ⟨hA, hA2⟩ := rArcs_bd h
  have M0 : 0 < M := lt_of_lt_of_le (by norm_num) hM
  have p1 := Real.pi_gt_d6
  have p2 := Real.pi_lt_d6
  set A := rArcs r
  have A0 : 0 < A := by linarith
  set B := 648000 / Real.pi with hB
  have B1 : 206264 ≤ B := by rw [hB, le_div_iff₀ Real.pi_pos]; linarith
  have B0 : 0 < B := by linarith
  have eB : w * (Real.pi / 648000) = w / B := by rw [hB]; field_simp
  rw [eB]
  have e : v / A - w / B = (v - w) / A + w * (B - A) / (A * B) := by field_simp; ring
  have hAB : (206264 : ℝ) * 206264 ≤ A * B := mul_le_mul hA2 B1 (by norm_num) A0.le
  have b1 : |(v - w) / A| ≤ 6.8e-21 * M := by
    rw [abs_div, abs_of_pos A0, div_le_iff₀ A0]
    have : 6.8e-21 * M * 206264 ≤ 6.8e-21 * M * A := mul_le_mul_of_nonneg_left hA2 (by positivity)
    refine hv.trans (le_trans ?_ this)
    norm_num
    linarith
  have b2 : |w * (B - A) / (A * B)| ≤ 3.1e-21 * M := by
    rw [abs_div, abs_mul, abs_of_pos (mul_pos A0 B0), div_le_iff₀ (mul_pos A0 B0), abs_sub_comm B A]
    have h1 := mul_le_mul hw hA (abs_nonneg _) M0.le
    have h2 : 3.1e-21 * M * (206264 * 206264) ≤ 3.1e-21 * M * (A * B) := mul_le_mul_of_nonneg_left hAB (by positivity)
    refine h1.trans (le_trans ?_ h2)
    norm_num
    linarith
  have b3 : |v / A - w / B| ≤ 9.9e-21 * M := by
    rw [e]
    refine (abs_add_le _ _).trans ((add_le_add b1 b2).trans (le_of_eq ?_))
    norm_num; ring
  have b4 : |w / B| ≤ M / 206264 := by
    rw [abs_div, abs_of_pos B0]
    exact div_le_div₀ M0.le hw (by norm_num) B1
  have b5 : |v / A| ≤ M / 206200 := by
    have e1 : v / A = (v / A - w / B) + w / B := by ring
    rw [e1]
    refine (abs_add_le _ _).trans ((add_le_add b3 b4).trans ?_)
    norm_num
    linarith
  have b6 := h.rel_le b5 (by norm_num at *; linarith)
  have e2 : r (v / A) - w / B = (r (v / A) - v / A) + (v / A - w / B) := by ring
  rw [e2]
  refine (abs_add_le _ _).trans ((add_le_add b6 b3).trans ?_)
  norm_num
  linarith

/-- C143. A lookup in double precision, for every rounding, at a time (a double) of at least four days after the MJD epoch: if the day is in the table the lookup succeeds, all
numbers are finite, UT1-UTC and length of day lie exactly between the tabulated values of the two rows and are exactly the tabulated ones at midnight, and all four values
are as accurate as the table allows (`M` bounds the entries). -/
theorem C143_lookup (h : Rounds53 r) (rows : List (EopRow ℝ)) (t M : ℝ) (ht : IsDouble t) (h4 : 4 ≤ t) (hM : 1e-40 ≤ M ∧ M ≤ 1e100) (hok : ∀ s ∈ rows, RowOk M s)
    (hd : ∃ s ∈ rows, s.mjd = ⌊t⌋) :
    ∃ i p q x y u l, Rows rows t i p q ∧ getCurrentEop (dTable r rows) (.fin t) = .ok (some ⟨.fin x, .fin y, .fin u, .fin l, .fin p.taiUtc⟩)
      ∧ (min p.ut1Utc q.ut1Utc ≤ u ∧ u ≤ max p.ut1Utc q.ut1Utc) ∧ (min p.lod q.lod ≤ l ∧ l ≤ max p.lod q.lod)
      ∧ (Int.fract t = 0 → u = p.ut1Utc ∧ l = p.lod)
      ∧ |x - between (Int.fract t) p.xPole q.xPole * (Real.pi / 648000)| ≤ 1.3e-20 * M ∧ |y - between (Int.fract t) p.yPole q.yPole * (Real.pi / 648000)| ≤ 1.3e-20 * M
      ∧ |u - between (Int.fract t) p.ut1Utc q.ut1Utc| ≤ 1.4e-15 * M ∧ |l - between (Int.fract t) p.lod q.lod| ≤ 1.4e-15 * M := by
  obtain ⟨i, p, q, hr⟩ := rows_found hd
  have hp := hok p (List.mem_of_getElem? hr.1)
  have hq := hok q (List.mem_of_getElem? hr.2.2.2)
  have e := lookup_dbl h ht h4 hr hM.2 hp hq
  have f0 := Int.fract_nonneg t
  have f1 := (fract_double ht h4).2
  have f2 := (Int.fract_lt_one t).le
  obtain ⟨⟨dx, px⟩, ⟨dy, py⟩, ⟨du, pu⟩, dl, pl⟩ := hp
  obtain ⟨⟨dx', qx⟩, ⟨dy', qy⟩, ⟨du', qu⟩, dl', ql⟩ := hq
  have hM' : 1e-50 ≤ M := le_trans (by norm_num) hM.1
  have M0 : 0 < M := lt_of_lt_of_le (by norm_num) hM.1
  have bd : ∀ {a b : ℝ}, |a| ≤ M → |b| ≤ M → |between (Int.fract t) a b| ≤ M := fun {a b} ha hb => by
    obtain ⟨a1, a2⟩ := abs_le.1 ha
    obtain ⟨b1, b2⟩ := abs_le.1 hb
    obtain ⟨c1, c2⟩ := between_bounds (a := a) (b := b) f0 f2
    exact abs_le.2 ⟨(le_min a1 b1).trans c1, c2.trans (max_le a2 b2)⟩
  exact ⟨i, p, q, _, _, _, _, hr, e, lerp_between h du du' f0 f1, lerp_between h dl dl' f0 f1, fun hz => by rw [hz, lerp_zero h du, lerp_zero h dl]; exact ⟨rfl, rfl⟩,
    pole_err h hM.1 (bd px qx) (lerp_err h hM' px qx f0 f2), pole_err h hM.1 (bd py qy) (lerp_err h hM' py qy f0 f2), lerp_err h hM' pu qu f0 f2, lerp_err h hM' pl ql f0 f2⟩

/-- the four interpolated columns -/
def eopCol (c : Fin 4) (p : EopRow ℝ) : ℝ := ![p.xPole, p.yPole, p.ut1Utc, p.lod] c
/-- the four interpolated results -/
def eopOut (c : Fin 4) (e : EopVal (Dbl r)) : Dbl r := ![e.xPole, e.yPole, e.ut1Utc, e.lod] c

/-- C143. No wiggles: in a table of consecutive days, if a column never falls (never rises) from row to row then the interpolated value never falls (never rises) from one time to
any later one, within a day and across midnight, not even by the last bit, in every rounding mode. -/
theorem C143_monotone (h : Rounds53 r) (rows : List (EopRow ℝ)) (d : ℤ) (hd : ∀ (i : ℕ) (p : EopRow ℝ), rows[i]? = some p → p.mjd = d + i) (M : ℝ) (hM : M ≤ 1e100)
    (hok : ∀ s ∈ rows, RowOk M s) (c : Fin 4) (t t' : ℝ) (ht : IsDouble t) (ht' : IsDouble t') (h4 : 4 ≤ t) (htt : t ≤ t') (e e' : EopVal (Dbl r))
    (he : getCurrentEop (dTable r rows) (.fin t) = .ok (some e)) (he' : getCurrentEop (dTable r rows) (.fin t') = .ok (some e')) :
    ∃ v v', eopOut c e = .fin v ∧ eopOut c e' = .fin v'
      ∧ ((∀ (i j : ℕ) (p q : EopRow ℝ), i ≤ j → rows[i]? = some p → rows[j]? = some q → eopCol c p ≤ eopCol c q) → v ≤ v')
      ∧ ((∀ (i j : ℕ) (p q : EopRow ℝ), i ≤ j → rows[i]? = some p → rows[j]? = some q → eopCol c q ≤ eopCol c p) → v' ≤ v) := by
  have found : ∀ {s : ℝ} {e : EopVal (Dbl r)}, getCurrentEop (dTable r rows) (.fin s) = .ok (some e) → ∃ i p q, Rows rows s i p q := fun {s e} hs => by
    by_cases hn : ∃ p ∈ rows, p.mjd = ⌊s⌋
    · exact rows_found hn
    · rw [lookup_none rows s hn] at hs; cases hs
  obtain ⟨i, p, q, hr⟩ := found he
  obtain ⟨i', p', q', hr'⟩ := found he'
  have ok : ∀ {k s}, rows[k]? = some s → RowOk M s := fun hs => hok _ (List.mem_of_getElem? hs)
  have k := lookup_dbl h ht h4 hr hM (ok hr.1) (ok hr.2.2.2)
  have k' := lookup_dbl h ht' (h4.trans htt) hr' hM (ok hr'.1) (ok hr'.2.2.2)
  rw [he] at k
  rw [he'] at k'
  have k := Option.some.inj (Except.ok.inj k)
  have k' := Option.some.inj (Except.ok.inj k')
  have f0 := Int.fract_nonneg t
  have f1 := (fract_double ht h4).2
  have f0' := Int.fract_nonneg t'
  have f1' := (fract_double ht' (h4.trans htt)).2
  -- the unconverted values
  set w := lerp r (Int.fract t) (eopCol c p) (eopCol c q) with hw
  set w' := lerp r (Int.fract t') (eopCol c p') (eopCol c q') with hw'
  have dbl : ∀ {k s}, rows[k]? = some s → IsDouble (eopCol c s) := fun {k s} hs => by
    obtain ⟨⟨dx, -⟩, ⟨dy, -⟩, ⟨du, -⟩, dl, -⟩ := ok hs
    fin_cases c
    exacts [dx, dy, du, dl]
  -- the rows are in order
  have hii : i ≤ i' := by
    have a1 : ((⌊t⌋ : ℤ) : ℝ) = d + i := by rw [← hr.2.1]; exact hd i p hr.1
    have a2 : ((⌊t'⌋ : ℤ) : ℝ) = d + i' := by rw [← hr'.2.1]; exact hd i' p' hr'.1
    have a3 : ((⌊t⌋ : ℤ) : ℝ) ≤ ⌊t'⌋ := by exact_mod_cast Int.floor_le_floor htt
    have : (i : ℝ) ≤ i' := by linarith
    exact_mod_cast this
  have hnext : ∀ j s, rows[j]? = some s → i < j → i + 1 ≤ j ∧ rows[i + 1]? = some q := fun j s hs hij => by
    have hj : j < rows.length := (List.getElem?_eq_some_iff.1 hs).1
    have := hr.2.2.2
    rw [nextRow, if_pos (by omega)] at this
    exact ⟨hij, this⟩
  have sameday : i = i' → p = p' ∧ q = q' ∧ Int.fract t ≤ Int.fract t' := fun hi => by
    subst hi
    have e1 := hr.1.symm.trans hr'.1
    have e2 := hr.2.2.2.symm.trans hr'.2.2.2
    have e3 : p = p' := Option.some.inj e1
    refine ⟨e3, Option.some.inj e2, ?_⟩
    have : ((⌊t⌋ : ℤ) : ℝ) = ⌊t'⌋ := by rw [← hr.2.1, ← hr'.2.1, e3]
    rw [Int.fract, Int.fract, this]
    linarith
  have le_next : ∀ k s, rows[k]? = some s → k ≤ nextRow rows k := fun k s _ => by rw [nextRow]; split_ifs <;> omega
  have up : (∀ (i j : ℕ) (p q : EopRow ℝ), i ≤ j → rows[i]? = some p → rows[j]? = some q → eopCol c p ≤ eopCol c q) → w ≤ w' := fun mono => by
    rcases hii.eq_or_lt with hi | hi
    · obtain ⟨rfl, rfl, hf⟩ := sameday hi
      exact lerp_mono h (mono _ _ _ _ (le_next _ _ hr.1) hr.1 hr.2.2.2) hf
    · obtain ⟨n1, n2⟩ := hnext _ _ hr'.1 hi
      have a := (lerp_mem h (dbl hr.1) (dbl hr.2.2.2) (mono _ _ _ _ (le_next _ _ hr.1) hr.1 hr.2.2.2) f0 f1).2
      have b := (lerp_mem h (dbl hr'.1) (dbl hr'.2.2.2) (mono _ _ _ _ (le_next _ _ hr'.1) hr'.1 hr'.2.2.2) f0' f1').1
      exact a.trans ((mono _ _ _ _ n1 n2 hr'.1).trans b)
  have down : (∀ (i j : ℕ) (p q : EopRow ℝ), i ≤ j → rows[i]? = some p → rows[j]? = some q → eopCol c q ≤ eopCol c p) → w' ≤ w := fun mono => by
    rcases hii.eq_or_lt with hi | hi
    · obtain ⟨rfl, rfl, hf⟩ := sameday hi
      exact lerp_anti h (mono _ _ _ _ (le_next _ _ hr.1) hr.1 hr.2.2.2) hf
    · obtain ⟨n1, n2⟩ := hnext _ _ hr'.1 hi
      have a := (lerp_mem' h (dbl hr.1) (dbl hr.2.2.2) (mono _ _ _ _ (le_next _ _ hr.1) hr.1 hr.2.2.2) f0 f1).1
      have b := (lerp_mem' h (dbl hr'.1) (dbl hr'.2.2.2) (mono _ _ _ _ (le_next _ _ hr'.1) hr'.1 hr'.2.2.2) f0' f1').2
      exact b.trans ((mono _ _ _ _ n1 n2 hr'.1).trans a)
  have A0 : 0 ≤ rArcs r := by linarith [(rArcs_bd h).2]
  have dv : ∀ {a b : ℝ}, a ≤ b → r (a / rArcs r) ≤ r (b / rArcs r) := fun hab => h.mono (div_le_div_of_nonneg_right hab A0)
  rw [k, k']
  fin_cases c
  · exact ⟨_, _, rfl, rfl, fun m => dv (up m), fun m => dv (down m)⟩
  · exact ⟨_, _, rfl, rfl, fun m => dv (up m), fun m => dv (down m)⟩
  · exact ⟨_, _, rfl, rfl, up, down⟩
  · exact ⟨_, _, rfl, rfl, up, down⟩

/-- C143. A time that is not a number is rejected, whatever was loaded, and so is an infinite one. -/
theorem C143_not_finite (obj : Obj (Dbl r)) (rows : List (EopRow ℝ)) :
    getCurrentEop obj ⟨.nan⟩ = .ok none ∧ getCurrentEop (dTable r rows) ⟨.pinf⟩ = .ok none ∧ getCurrentEop (dTable r rows) ⟨.ninf⟩ = .ok none := by
  have key : ∀ (o : Obj (Dbl r)) (z : XR), (∀ m ∈ o.eops.mjd, Flt.eq m.x z = false) → Flt.floor z = z → getCurrentEop o ⟨z⟩ = .ok none := fun o z hz hf => by
    have : o.eops.mjd.findIdx? (fun m => Flt.eq m (Flt.floor (⟨z⟩ : Dbl r))) = none := by
      rw [List.findIdx?_eq_none_iff]
      intro x hx
      show Flt.eq x.x (Flt.floor z) = false
      rw [hf]; exact hz x hx
    simp only [getCurrentEop, this]
    split_ifs <;> rfl
  refine ⟨key _ _ (fun m _ => XR.X_eq_nan _) rfl, key _ _ (fun m hm => ?_) rfl, key _ _ (fun m hm => ?_) rfl⟩
  all_goals
    simp only [dTable, List.mem_map] at hm
    obtain ⟨s, -, rfl⟩ := hm
    rfl

omit [Machine] in
/-- two consecutive days of (rounded) polar motion and UT1-UTC, at six o'clock -/
example : let a : EopRow ℝ := ⟨60310, 1 / 8, 3 / 16, -1 / 64, 1 / 1024, 37⟩; let b : EopRow ℝ := ⟨60311, 9 / 64, 3 / 16, -1 / 128, 1 / 2048, 37⟩
    (∀ s ∈ [a, b], RowOk 1 s) ∧ (∀ (i : ℕ) (p : EopRow ℝ), [a, b][i]? = some p → p.mjd = ((60310 : ℤ) : ℝ) + i) ∧ IsDouble 60310.25 ∧ ∃ s ∈ [a, b], s.mjd = ⌊(60310.25 : ℝ)⌋ := by
  have fl : ⌊(60310.25 : ℝ)⌋ = 60310 := by rw [Int.floor_eq_iff]; norm_num
  have dd : ∀ n : ℤ, |n| ≤ 2 ^ 53 → IsDouble (n / 2048) := fun n hn => ⟨n, -11, hn, by norm_num, by norm_num [div_eq_mul_inv]⟩
  intro a b
  refine ⟨?_, ?_, ⟨241241, -2, by norm_num, by norm_num, by norm_num⟩, a, by simp, by rw [fl]; norm_num [a]⟩
  · intro s hs
    simp only [List.mem_cons, List.not_mem_nil, or_false] at hs
    rcases hs with rfl | rfl
    · refine ⟨⟨?_, by norm_num [a, abs_le]⟩, ⟨?_, by norm_num [a, abs_le]⟩, ⟨?_, by norm_num [a, abs_le]⟩, ?_, by norm_num [a, abs_le]⟩
      · have := dd 256 (by norm_num); norm_num [a] at this ⊢; exact this
      · have := dd 384 (by norm_num); norm_num [a] at this ⊢; exact this
      · have := dd (-32) (by norm_num); norm_num [a] at this ⊢; exact this
      · have := dd 2 (by norm_num); norm_num [a] at this ⊢; exact this
    · refine ⟨⟨?_, by norm_num [b, abs_le]⟩, ⟨?_, by norm_num [b, abs_le]⟩, ⟨?_, by norm_num [b, abs_le]⟩, ?_, by norm_num [b, abs_le]⟩
      · have := dd 288 (by norm_num); norm_num [b] at this ⊢; exact this
      · have := dd 384 (by norm_num); norm_num [b] at this ⊢; exact this
      · have := dd (-16) (by norm_num); norm_num [b] at this ⊢; exact this
      · have := dd 1 (by norm_num); norm_num [b] at this ⊢; exact this
  · intro i p hp
    match i with
    | 0 => simp at hp; subst hp; norm_num [a]
    | 1 => simp at hp; subst hp; norm_num [b]
    | n + 2 => simp at hp

end NavFuse.Props
