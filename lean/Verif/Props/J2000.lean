import Verif.Lemmas.J2000
import Verif.Props.Eop
import Verif.Props.Mjd

/-! # J2000 rotations: C16-C20, C88, C89 -/

set_option linter.unusedSimpArgs false

namespace NavFuse.Props
open Spec Rotations Matrix

section anyScalar
variable {α : Type} [Add α] [Sub α] [Mul α] [Div α] [Neg α] [Flt α]

/-- a rotation request: date vector, file name and the caller's matrix -/
inductive Req (α : Type)
  | toEcef (dateVec : List α) (eopFile : List Char) (R : M3 α)
  | toJ2k (dateVec : List α) (eopFile : List Char) (R : M3 α)

/-- one request on an object -/
def Req.step (obj : Obj α) : Req α → Out (Bool × M3 α × Obj α)
  | .toEcef v f R => computeRJ2k2Ecef obj v f R
  | .toJ2k v f R => computeREcef2J2k obj v f R

/-- the same request with another file name -/
def Req.withFile (f : List Char) : Req α → Req α
  | .toEcef v _ R => .toEcef v f R
  | .toJ2k v _ R => .toJ2k v f R

/-- requests one after the other on the same object -/
def runReqs (obj : Obj α) : List (Req α) → Out (List (Bool × M3 α))
  | [] => .ok []
  | q :: qs => do
    let (b, R, obj) ← q.step obj
    let rest ← runReqs obj qs
    .ok ((b, R) :: rest)

theorem step_pure (obj : Obj α) (q : Req α) :
    (∃ b R, ∀ f, (q.withFile f).step obj = .ok (b, R, obj)) ∨ (∃ s, ∀ f, (q.withFile f).step obj = .error s) := by
  rcases q with ⟨v, f', R⟩ | ⟨v, f', R⟩
  all_goals
    simp only [Req.withFile, Req.step, computeRJ2k2Ecef, computeREcef2J2k]
    split_ifs with h
    · exact Or.inl ⟨_, _, fun _ => rfl⟩
    · cases hc : convertDatevec2Mjd v (Flt.lit 0) with
      | error s => exact Or.inr ⟨s, fun _ => rfl⟩
      | ok p =>
        obtain ⟨ok, m⟩ := p
        cases ok
        · exact Or.inl ⟨_, _, fun _ => rfl⟩
        · cases hg : getCurrentEop obj m with
          | error s => refine Or.inr ⟨s, fun _ => ?_⟩; simp [osimp, hg]
          | ok o =>
            cases o with
            | none => refine Or.inl ⟨false, R, fun _ => ?_⟩; simp [osimp, hg]
            | some e => first | (refine Or.inl ⟨true, j2kProduct m e, fun _ => ?_⟩; simp [osimp, hg]; done)
                              | (refine Or.inl ⟨true, mtr (j2kProduct m e), fun _ => ?_⟩; simp [osimp, hg])

/-- C16: a request leaves the object alone and does not depend on the file name; the answers to any sequence of requests are those each
request would get on its own. -/
theorem C16_pure (obj : Obj α) :
    (∀ (q : Req α) b R obj', q.step obj = .ok (b, R, obj') → obj' = obj) ∧
    (∀ (q : Req α) f, (q.withFile f).step obj = q.step obj) ∧
    (∀ qs : List (Req α), runReqs obj qs = qs.mapM (fun q => do let (b, R, _) ← q.step obj; .ok (b, R))) := by
  have self : ∀ q : Req α, ∃ f, q.withFile f = q := fun q => by cases q <;> exact ⟨_, rfl⟩
  have h1 : ∀ (q : Req α) b R obj', q.step obj = .ok (b, R, obj') → obj' = obj := by
    intro q b R obj' h
    obtain ⟨f, hf⟩ := self q
    rcases step_pure obj q with ⟨b', R', e⟩ | ⟨s, e⟩
    · have := e f; rw [hf, h] at this; cases this; rfl
    · have := e f; rw [hf, h] at this; cases this
  refine ⟨h1, ?_, ?_⟩
  · intro q f
    obtain ⟨f0, hf⟩ := self q
    conv_rhs => rw [← hf]
    rcases step_pure obj q with ⟨b', R', e⟩ | ⟨s, e⟩ <;> rw [e, e]
  · intro qs
    induction qs with
    | nil => rfl
    | cons q qs ih =>
      rw [runReqs, List.mapM_cons]
      cases hs : q.step obj with
      | error s => rfl
      | ok p =>
        obtain ⟨b, R, obj'⟩ := p
        have := h1 q b R obj' hs
        subst this
        simp only [osimp, ih]

/-- C18, over any scalar type: the two functions succeed, fail and stop together, and on success one returns the transpose of the other. -/
theorem C18_transpose (obj : Obj α) (v : List α) (f g : List Char) (R0 R1 : M3 α) :
    (∀ M o, computeRJ2k2Ecef obj v f R0 = .ok (true, M, o) → computeREcef2J2k obj v g R1 = .ok (true, mtr M, o)) ∧
    (∀ M o, computeREcef2J2k obj v g R1 = .ok (true, M, o) → computeRJ2k2Ecef obj v f R0 = .ok (true, mtr M, o)) ∧
    ((∃ M o, computeRJ2k2Ecef obj v f R0 = .ok (false, M, o)) ↔ ∃ M o, computeREcef2J2k obj v g R1 = .ok (false, M, o)) ∧
    (∀ s, computeRJ2k2Ecef obj v f R0 = .error s ↔ computeREcef2J2k obj v g R1 = .error s) := by
  simp only [computeRJ2k2Ecef, computeREcef2J2k]
  split_ifs with h
  · simp
  · cases hc : convertDatevec2Mjd v (Flt.lit 0) with
    | error s => simp [osimp]
    | ok p =>
      obtain ⟨ok, m⟩ := p
      cases ok
      · simp [osimp]
      · cases hg : getCurrentEop obj m with
        | error s => simp [osimp, hg]
        | ok o =>
          cases o with
          | none => simp [osimp, hg]
          | some e =>
            simp only [osimp, hg]
            simp
            rfl

/-- C20 for the J2000 rotations: a request that returns false leaves the caller's matrix as it was. -/
theorem C20_j2000_untouched (obj o : Obj α) (v : List α) (f : List Char) (R0 M : M3 α) :
    (computeRJ2k2Ecef obj v f R0 = .ok (false, M, o) → M = R0) ∧ (computeREcef2J2k obj v f R0 = .ok (false, M, o) → M = R0) := by
  simp only [computeRJ2k2Ecef, computeREcef2J2k]
  split_ifs with h
  · simp only [Except.ok.injEq, Prod.mk.injEq, true_and]
    exact ⟨fun h => h.1.symm, fun h => h.1.symm⟩
  · cases hc : convertDatevec2Mjd v (Flt.lit 0) with
    | error s => simp [osimp]
    | ok p =>
      obtain ⟨ok, m⟩ := p
      cases ok
      · simp only [osimp, Bool.not_false, if_true, Except.ok.injEq, Prod.mk.injEq, true_and]
        exact ⟨fun h => h.1.symm, fun h => h.1.symm⟩
      · cases hg : getCurrentEop obj m with
        | error s => simp [osimp, hg]
        | ok r =>
          cases r with
          | none =>
            simp only [osimp, hg, Bool.not_true, Bool.false_eq_true, if_false, Except.ok.injEq, Prod.mk.injEq, true_and]
            exact ⟨fun h => h.1.symm, fun h => h.1.symm⟩
          | some e => simp [osimp, hg]

/-- C04, second half: a date vector that already held entries before the conversion is refused by both rotations. -/
theorem C04_refused (obj : Obj α) (v : List α) (h : v ≠ []) (w : List α) (t : Int) (b : Bool)
    (hv : unixTimestampToDateVec t v = .ok (b, w)) (f : List Char) (R0 : M3 α) :
    computeRJ2k2Ecef obj w f R0 = .ok (false, R0, obj) ∧ computeREcef2J2k obj w f R0 = .ok (false, R0, obj) := by
  have hl : w.length ≠ 6 := by
    rcases C04_appends_six (α := α) t with ⟨u, hu, e⟩ | ⟨s, e⟩
    · rw [e v] at hv
      cases hv
      have : v.length ≠ 0 := by simpa using h
      rw [List.length_append]; omega
    · rw [e v] at hv; cases hv
  simp [computeRJ2k2Ecef, computeREcef2J2k, hl]

end anyScalar

/-- What a successful request has gone through. -/
theorem j2k_success (obj o : Obj ℝ) (v : List ℝ) (f : List Char) (R0 M : M3 ℝ) (h : computeRJ2k2Ecef obj v f R0 = .ok (true, M, o)) :
    ∃ u e, convertDatevec2Mjd v 0 = .ok (true, u) ∧ getCurrentEop obj u = .ok (some e) ∧ M = j2kProduct u e := by
  have z : (Flt.lit 0 : ℝ) = 0 := by simp [rsimp]
  simp only [computeRJ2k2Ecef, z] at h
  split_ifs at h with hl
  · cases h
  · cases hc : convertDatevec2Mjd v (0 : ℝ) with
    | error s => rw [hc] at h; cases h
    | ok p =>
      obtain ⟨ok, m⟩ := p
      cases ok
      · rw [hc] at h; cases h
      · cases hg : getCurrentEop obj m with
        | error s => rw [hc] at h; simp [osimp, hg] at h
        | ok r =>
          cases r with
          | none => rw [hc] at h; simp [osimp, hg] at h
          | some e =>
            rw [hc] at h
            simp [osimp, hg] at h
            exact ⟨m, e, rfl, hg, h.1.symm⟩

/-- C17: every matrix returned with success is a proper rotation. -/
theorem C17_rotation (obj o : Obj ℝ) (v : List ℝ) (f : List Char) (R0 M : M3 ℝ) :
    (computeRJ2k2Ecef obj v f R0 = .ok (true, M, o) → IsRot M) ∧ (computeREcef2J2k obj v f R0 = .ok (true, M, o) → IsRot M) := by
  constructor
  · intro h
    obtain ⟨u, e, -, -, rfl⟩ := j2k_success obj o v f R0 M h
    rw [j2k_R]; exact iauMatrix_isRot _ _ _ _ _ _
  · intro h
    have h' := (C18_transpose obj v f f R0 R0).2.1 M o h
    obtain ⟨u, e, -, -, hM⟩ := j2k_success obj o v f R0 _ h'
    have : IsRot (mtr M) := by rw [hM, j2k_R]; exact iauMatrix_isRot _ _ _ _ _ _
    have := this.transpose
    simpa [rsimp] using this

/-- C18 at ℝ: transforming a vector forth and back restores it. -/
theorem C18_inverse (obj o : Obj ℝ) (v : List ℝ) (f : List Char) (R0 M : M3 ℝ) (h : computeRJ2k2Ecef obj v f R0 = .ok (true, M, o)) :
    ∃ N, computeREcef2J2k obj v f R0 = .ok (true, N, o) ∧ N * M = 1 ∧ M * N = 1 ∧ (∀ x, N *ᵥ (M *ᵥ x) = x) ∧ ∀ x, M *ᵥ (N *ᵥ x) = x := by
  have hr := (C17_rotation obj o v f R0 M).1 h
  refine ⟨Mᵀ, (C18_transpose obj v f f R0 R0).1 M o h, hr.tr_mul, hr.1, fun x => ?_, fun x => ?_⟩
  · rw [mulVec_mulVec, hr.tr_mul, one_mulVec]
  · rw [mulVec_mulVec, hr.1, one_mulVec]

/-- non-vacuity of C17, C18, C88: 1858-11-22 06:00, day 5, with a table for days 5 and 6 -/
example (u v : EopRow ℝ) (h : u.mjd = 5) (R0 : M3 ℝ) :
    ∃ M, computeRJ2k2Ecef (twoDays u v) [1858, 11, 22, 6, 0, 0] [] R0 = .ok (true, M, twoDays u v) := by
  have hD : Date.Valid ⟨1858, 11, 22⟩ := ⟨by norm_num, by norm_num [monthLen], by norm_num⟩
  have hc := convert_date hD (h := 6) (mi := 0) (s := 0) (by norm_num) (by norm_num) (by norm_num) (0 : ℝ)
  have hz : mjdZ ⟨1858, 11, 22⟩ = 5 := by decide
  rw [hz] at hc
  norm_num at hc
  have hfl : ⌊(21 / 4 : ℝ)⌋ = 5 := by rw [Int.floor_eq_iff]; norm_num
  obtain ⟨pre, post, -, -, hg⟩ := (C13_lookup (twoDays u v) ⟨rfl, rfl, rfl, rfl, rfl⟩ (21 / 4)).2 rfl 0
    (by rw [hfl]; simp [twoDays, h]) (by intro j hj; omega)
  have z : (Flt.lit 0 : ℝ) = 0 := by simp [rsimp]
  generalize EopVal.mk _ _ _ _ _ = e at hg
  exact ⟨j2kProduct (21 / 4) e, by simp [computeRJ2k2Ecef, z, hc, osimp, hg]⟩

/-- IAU 1982 mean sidereal time in seconds, as one polynomial of UT1 -/
noncomputable def iauGmst (T : ℝ) : ℝ :=
  67310.54841 + (876600 * 3600 + 8640184.812866) * T + 0.093104 * T ^ 2 - 0.0000062 * T ^ 3

/-- C89: mean sidereal time agrees with the IAU 1982 polynomial up to whole days and 10⁻¹⁰ seconds, at every instant; in particular
it does not jump at midnight. -/
theorem C89_gmst (u : ℝ) : ∃ k : ℤ, |gmstSec u - (iauGmst (centuries u) + 86400 * k)| ≤ 1e-10 := by
  refine ⟨51544 - ⌊u⌋, ?_⟩
  have f0 : 0 ≤ u - ⌊u⌋ := Int.fract_nonneg u
  have f1 : u - ⌊u⌋ < 1 := Int.fract_lt_one u
  simp only [gmstSec, iauGmst, centuries, J_R]
  simp only [rsimp]
  push_cast
  generalize hF : (⌊u⌋ : ℝ) = F at *
  have e : ((24110.54841 : ℝ) + 8640184.812866 * ((F - 51544.5) / 36525) + 1.002737909350795 * (86400 * (u - F)) +
      (0.093104 - 0.0000062 * ((u - 51544.5) / 36525)) * ((u - 51544.5) / 36525) * ((u - 51544.5) / 36525)) -
      (67310.54841 + (876600 * 3600 + 8640184.812866) * ((u - 51544.5) / 36525) + 0.093104 * ((u - 51544.5) / 36525) ^ 2 -
        0.0000062 * ((u - 51544.5) / 36525) ^ 3 + 86400 * (51544 - F)) = (u - F) * (1.002737909350795 * 86400 - 86400 - 8640184.812866 / 36525) := by
    ring
  rw [e, abs_le]
  norm_num
  constructor <;> nlinarith

theorem R3_add_turns (t : ℝ) (k : ℤ) : R3 (t + k * (2 * Real.pi)) = R3 t := by
  simp only [R3, rotZ, Real.cos_add_int_mul_two_pi, Real.sin_add_int_mul_two_pi]

theorem gsTime_R (u m : ℝ) : ∃ k : ℤ, gsTime u m
    = 2 * Real.pi * (gmstSec u / 86400) + (nutationAngles m).1 * Real.cos (iauObliquity (centuries m)) + k * (2 * Real.pi) := by
  have h2 : (Flt.lit 2 : ℝ) * Flt.pi = 2 * Real.pi := by simp [rsimp]
  have h3 : (Flt.lit 86400 : ℝ) = 86400 := by simp [rsimp]
  simp only [gsTime, h2, h3, obliquity_R, R_fmod, R_cos, R_floor]
  obtain ⟨k, hk, -⟩ := fmod_pos_R (2 * Real.pi * (gmstSec u / 86400 - (⌊gmstSec u / 86400⌋ : ℝ)) +
    (nutationAngles m).1 * Real.cos (iauObliquity (centuries m))) (2 * Real.pi) Real.two_pi_pos
  refine ⟨-⌊gmstSec u / 86400⌋ - k, ?_⟩
  rw [hk]; push_cast; ring

/-- C88: on success the matrix is polar motion · Earth rotation · nutation · precession with the IAU 1976/1980 precession angles and
obliquity at Terrestrial Time, and the sidereal angle of UT1 plus the equation of the equinoxes. -/
theorem C88_iau (obj o : Obj ℝ) (v : List ℝ) (f : List Char) (R0 M : M3 ℝ) (h : computeRJ2k2Ecef obj v f R0 = .ok (true, M, o)) :
    ∃ utc e, convertDatevec2Mjd v 0 = .ok (true, utc) ∧ getCurrentEop obj utc = .ok (some e) ∧
      let tt := utc + (e.taiUtc + 32.184) / 86400
      let ut1 := utc + e.ut1Utc / 86400
      let n := nutationAngles tt
      M = iauMatrix (centuries tt) n.1 n.2 (2 * Real.pi * (gmstSec ut1 / 86400) + n.1 * Real.cos (iauObliquity (centuries tt)))
        e.xPole e.yPole := by
  obtain ⟨u, e, h1, h2, rfl⟩ := j2k_success obj o v f R0 M h
  refine ⟨u, e, h1, h2, ?_⟩
  have ht : u + (e.taiUtc + 32.184) / 86400 = ttOf u e := by rw [ttOf]; ring
  have hu : u + e.ut1Utc / 86400 = ut1Of u e := rfl
  simp only [ht, hu]
  rw [j2k_R]
  obtain ⟨k, hk⟩ := gsTime_R (ut1Of u e) (ttOf u e)
  rw [hk, iauMatrix, iauMatrix, R3_add_turns]

/-! Nutation. -/

/-- the fundamental arguments of nutation in arcseconds, not reduced -/
noncomputable def iauArgs (T : ℝ) : Fin 5 → ℝ :=
  ![485866.733 + (1325 * 1296000 + 715922.633) * T + 31.310 * T ^ 2 + 0.064 * T ^ 3,
    1287099.804 + (99 * 1296000 + 1292581.224) * T - 0.577 * T ^ 2 - 0.012 * T ^ 3,
    335778.877 + (1342 * 1296000 + 295263.137) * T - 13.257 * T ^ 2 + 0.011 * T ^ 3,
    1072261.307 + (1236 * 1296000 + 1105601.328) * T - 6.891 * T ^ 2 + 0.019 * T ^ 3,
    450160.280 - (5 * 1296000 + 482890.539) * T + 7.455 * T ^ 2 + 0.008 * T ^ 3]

/-- the angle of one term of the series -/
noncomputable def termAngle (a : Fin 5 → ℝ) (c : NutRow) : ℝ :=
  (c.c0 * a 0 + c.c1 * a 1 + c.c2 * a 2 + c.c3 * a 3 + c.c4 * a 4) * arcsec

theorem reduce_R (x : ℝ) : ∃ k : ℤ, reduceRev x = x + k * 1296000 ∧ 0 ≤ reduceRev x ∧ reduceRev x < 1296000 := by
  have hrev : (rev : ℝ) = 1296000 := by simp only [rev, rsimp]; norm_num
  obtain ⟨k, h1, h2, -⟩ := fmod_pos_R x 1296000 (by norm_num)
  have h2' := abs_lt.1 h2
  simp only [reduceRev, hrev, R_fmod]
  by_cases hlt : fmodR x 1296000 < 0
  · have : Flt.lt (fmodR x 1296000) (Flt.lit 0) = true := by rw [R_lt]; simpa [rsimp] using hlt
    rw [if_pos this]
    exact ⟨1 - k, by rw [h1]; push_cast; ring, by linarith, by linarith⟩
  · have : ¬ Flt.lt (fmodR x 1296000) (Flt.lit 0) = true := by rw [R_lt]; simpa [rsimp] using hlt
    rw [if_neg this]
    exact ⟨-k, by rw [h1]; push_cast; ring, by linarith, by linarith⟩

/-- C19, the arguments: reduced to one revolution, and the reduction does not change the angles, which are those of the series at the
unreduced arguments. -/
theorem C19_reduction (m : ℝ) :
    (∀ x : ℝ, ∃ k : ℤ, reduceRev x = x + k * 1296000 ∧ 0 ≤ reduceRev x ∧ reduceRev x < 1296000) ∧
    let T := centuries m
    (nutationAngles m).1 = (nutTable.map fun c => ((c.c5 : ℝ) + c.c6 * T) * Real.sin (termAngle (iauArgs T) c)).sum * (1e-5 * arcsec) ∧
    (nutationAngles m).2 = (nutTable.map fun c => ((c.c7 : ℝ) + c.c8 * T) * Real.cos (termAngle (iauArgs T) c)).sum * (1e-5 * arcsec) := by
  refine ⟨reduce_R, ?_⟩
  intro T
  have h1 : (m - (mjdJ2000 : ℝ)) / Flt.lit 36525 = T := by rw [J_R]; simp only [T, centuries, rsimp]
  have hrev : (rev : ℝ) = 1296000 := by simp only [rev, rsimp]; norm_num
  have hp : argPolys T = (iauArgs T 0, iauArgs T 1, iauArgs T 2, iauArgs T 3, iauArgs T 4) := by
    simp only [argPolys, hrev, iauArgs]
    simp only [rsimp]
    simp
    refine ⟨?_, ?_, ?_, ?_, ?_⟩ <;> ring
  have key : ∀ c : NutRow, ∃ k : ℤ, nutArg (reduceRev (iauArgs T 0)) (reduceRev (iauArgs T 1)) (reduceRev (iauArgs T 2)) (reduceRev (iauArgs T 3))
      (reduceRev (iauArgs T 4)) c = termAngle (iauArgs T) c + k * (2 * Real.pi) := by
    intro c
    obtain ⟨k0, e0, -⟩ := reduce_R (iauArgs T 0)
    obtain ⟨k1, e1, -⟩ := reduce_R (iauArgs T 1)
    obtain ⟨k2, e2, -⟩ := reduce_R (iauArgs T 2)
    obtain ⟨k3, e3, -⟩ := reduce_R (iauArgs T 3)
    obtain ⟨k4, e4, -⟩ := reduce_R (iauArgs T 4)
    refine ⟨c.c0 * k0 + c.c1 * k1 + c.c2 * k2 + c.c3 * k3 + c.c4 * k4, ?_⟩
    simp only [nutArg, e0, e1, e2, e3, e4, arcs_R, termAngle, arcsec, R_ofInt]
    rw [div_div_eq_mul_div]
    push_cast
    ring
  have hs : ∀ c : NutRow, Real.sin (nutArg (reduceRev (iauArgs T 0)) (reduceRev (iauArgs T 1)) (reduceRev (iauArgs T 2)) (reduceRev (iauArgs T 3))
      (reduceRev (iauArgs T 4)) c) = Real.sin (termAngle (iauArgs T) c) := by
    intro c; obtain ⟨k, hk⟩ := key c; rw [hk, Real.sin_add_int_mul_two_pi]
  have hc : ∀ c : NutRow, Real.cos (nutArg (reduceRev (iauArgs T 0)) (reduceRev (iauArgs T 1)) (reduceRev (iauArgs T 2)) (reduceRev (iauArgs T 3))
      (reduceRev (iauArgs T 4)) c) = Real.cos (termAngle (iauArgs T) c) := by
    intro c; obtain ⟨k, hk⟩ := key c; rw [hk, Real.cos_add_int_mul_two_pi]
  have z : (Flt.lit 0 : ℝ) = 0 := by simp [rsimp]
  have z5 : (Flt.lit 0.00001 : ℝ) = 1e-5 := by simp only [rsimp]
  simp only [nutationAngles, h1, hp, R_ofInt, R_sin, R_cos, hs, hc, z, z5, nut_fold, arcs_R, arcsec]
  constructor <;> rw [div_div_eq_mul_div] <;> ring

/-- C19: the nutation angles are bounded by the sums of the absolute coefficients at every epoch: about 19.4" and 10.1" plus
0.018" and 0.0014" per century. -/
theorem C19_bounded (m : ℝ) :
    |(nutationAngles m).1| ≤ (19.4368 + 0.01823 * |centuries m|) * arcsec ∧
    |(nutationAngles m).2| ≤ (10.0762 + 0.00141 * |centuries m|) * arcsec := by
  obtain ⟨-, h1, h2⟩ := C19_reduction m
  have ha : 0 < arcsec := div_pos Real.pi_pos (by norm_num)
  have b1 := series_bound (centuries m) (·.c5) (·.c6) (fun c => Real.sin (termAngle (iauArgs (centuries m)) c)) (fun c => Real.abs_sin_le_one _) nutTable
  have b2 := series_bound (centuries m) (·.c7) (·.c8) (fun c => Real.cos (termAngle (iauArgs (centuries m)) c)) (fun c => Real.abs_cos_le_one _) nutTable
  have s5 : (nutTable.map fun c => (c.c5.natAbs : Int)).sum = 1943680 := by decide +kernel
  have s6 : (nutTable.map fun c => (c.c6.natAbs : Int)).sum = 1823 := by decide +kernel
  have s7 : (nutTable.map fun c => (c.c7.natAbs : Int)).sum = 1007620 := by decide +kernel
  have s8 : (nutTable.map fun c => (c.c8.natAbs : Int)).sum = 141 := by decide +kernel
  rw [s5, s6] at b1
  rw [s7, s8] at b2
  push_cast at b1 b2
  have hpos : 0 < (1e-5 : ℝ) * arcsec := by positivity
  rw [h1, h2, abs_mul _ ((1e-5 : ℝ) * arcsec), abs_mul _ ((1e-5 : ℝ) * arcsec), abs_of_pos hpos]
  constructor
  · have := mul_le_mul_of_nonneg_right b1 (by positivity : 0 ≤ (1e-5 : ℝ) * arcsec)
    refine this.trans (le_of_eq ?_); ring
  · have := mul_le_mul_of_nonneg_right b2 (by positivity : 0 ≤ (1e-5 : ℝ) * arcsec)
    refine this.trans (le_of_eq ?_); ring

end NavFuse.Props
