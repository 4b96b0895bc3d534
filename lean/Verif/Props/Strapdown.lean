import Verif.Lemmas.StrapdownEval
import Mathlib.Analysis.SpecialFunctions.Trigonometric.Bounds

/-! # Properties C48–C52: the strapdown navigator

A history is a list of calls; `run` performs them one after the other on one object and collects the returned `bool`s. -/

set_option linter.unusedSectionVars false

namespace NavFuse.Props
open Matrix NavFuse.Spec NavFuse.Strapdown NavFuse.NavUtils NavFuse.XR

section generic
variable {α : Type} [Add α] [Sub α] [Mul α] [Div α] [Neg α] [Flt α]

/-- a call of a public member function -/
inductive Call (α : Type)
  | init (lla vNed rph : V3 α) (tov : Int)
  | integ (dV dTh : V3 α) (tov : Int)

/-- the time stamp passed to a call -/
def Call.tov : Call α → Int
  | .init _ _ _ t => t
  | .integ _ _ t => t

/-- perform one call -/
def call (s : St α) : Call α → Out (Bool × St α)
  | .init lla vNed rph t => .ok (Strapdown.init s lla vNed rph t)
  | .integ dV dTh t => integrate s dV dTh t

/-- perform the calls in order; the results are collected most recent first -/
def run (s : St α) : List (Call α) → Out (List Bool × St α)
  | [] => .ok ([], s)
  | c :: cs => do
    let r ← call s c
    let q ← run r.2 cs
    return (r.1 :: q.1, q.2)

/-- every `integrate` time minus the time of the call before it is an `int64_t` -/
def TimesFit : Int → List (Call α) → Prop
  | _, [] => True
  | _, .init _ _ _ t :: cs => TimesFit t cs
  | t0, .integ _ _ t :: cs => (-2 ^ 63 ≤ t - t0 ∧ t - t0 < 2 ^ 63) ∧ TimesFit t cs

/-- sufficient: all time stamps are non-negative `int64_t` values (after 1970) -/
theorem timesFit_of_nonneg (cs : List (Call α)) (t0 : Int) (h0 : 0 ≤ t0 ∧ t0 < 2 ^ 63) (h : ∀ c ∈ cs, 0 ≤ c.tov ∧ c.tov < 2 ^ 63) :
    TimesFit t0 cs := by
  induction cs generalizing t0 with
  | nil => trivial
  | cons c cs ih =>
    have h1 := h c (by simp)
    have h2 := ih c.tov h1 fun d hd => h d (by simp [hd])
    cases c with
    | init => exact h2
    | integ dV dTh t => exact ⟨by simp only [Call.tov] at h1; constructor <;> omega, h2⟩

theorem init_eval (s : St α) (lla vNed rph : V3 α) (t : Int) : Strapdown.init s lla vNed rph t =
    (true, { s with lla := some lla, vNed := some vNed, tov := some t, RB2N := some (Attitude.euler2Dcm rph).2, 
                     llaPrev := some lla, vNedPrev := some vNed, RB2NPrev := some (Attitude.euler2Dcm rph).2, tovPrev := some t }) := rfl

theorem init_ready (s : St α) (lla vNed rph : V3 α) (t : Int) :
    Ready (Strapdown.init s lla vNed rph t).2 lla vNed (Attitude.euler2Dcm rph).2 t := ⟨rfl, rfl, rfl, rfl⟩

theorem call_ready (s : St α) (lla vNed : V3 α) (R : M3 α) (t : Int) (h : Ready s lla vNed R t) (c : Call α) (cs : List (Call α))
    (hf : TimesFit t (c :: cs)) : ∃ s', call s c = .ok (true, s') ∧ (∃ l v R', Ready s' l v R' c.tov) ∧ TimesFit c.tov cs := by
  cases c with
  | init l v rph t' => exact ⟨_, rfl, ⟨_, _, _, init_ready s l v rph t'⟩, hf⟩
  | integ dV dTh t' => exact ⟨_, integrate_eval s lla vNed dV dTh R t t' h hf.1, ⟨_, _, _, rfl, rfl, rfl, rfl⟩, hf.2⟩

theorem run_ready (cs : List (Call α)) (s : St α) (lla vNed : V3 α) (R : M3 α) (t : Int) (h : Ready s lla vNed R t) (hf : TimesFit t cs) :
    ∃ s', run s cs = .ok (List.replicate cs.length true, s')
      ∧ ∃ l v R', Ready s' l v R' ((cs.getLast?.map Call.tov).getD t) := by
  induction cs generalizing s lla vNed R t with
  | nil => exact ⟨s, rfl, _, _, _, h⟩
  | cons c cs ih =>
    obtain ⟨s1, e1, ⟨l, v, R', h1⟩, hf1⟩ := call_ready s lla vNed R t h c cs hf
    obtain ⟨s2, e2, l2, v2, R2, h2⟩ := ih s1 l v R' c.tov h1 hf1
    refine ⟨s2, ?_, l2, v2, R2, ?_⟩
    · simp only [run, e1, e2, osimp, List.length_cons, List.replicate_succ]
    · cases cs with
      | nil => simpa using h2
      | cons d ds =>
        rw [List.getLast?_cons_cons]
        rwa [List.getLast?_eq_some_getLast (List.cons_ne_nil d ds), Option.map_some, Option.getD_some] at h2 ⊢

/-! ## C52 -/

/-- C52: a fresh object must not be integrated: whatever the arguments, the call reads an indeterminate member. -/
theorem C52_integrate_before_initialize (dV dTh : V3 α) (tov : Int) : integrate ({} : St α) dV dTh tov = .error (.ub .uninit) := rfl

/-- C52: once `initialize` was called, on an object in any state, every further call sequence whose time differences are representable
completes without undefined behaviour, and every call returns true. -/
theorem C52_initialized_always_succeeds (s : St α) (lla vNed rph : V3 α) (t : Int) (cs : List (Call α)) (hf : TimesFit t cs) :
    ∃ s', run s (.init lla vNed rph t :: cs) = .ok (List.replicate (cs.length + 1) true, s') := by
  obtain ⟨s', e, -⟩ := run_ready cs _ _ _ _ _ (init_ready s lla vNed rph t) hf
  refine ⟨s', ?_⟩
  simp only [run, call, init_eval, osimp] at e ⊢
  rw [e]; rfl

/-- C52: the time condition is needed. If two consecutive time stamps are too far apart the subtraction overflows. -/
theorem C52_time_overflow (s : St α) (lla vNed rph dV dTh : V3 α) (t t' : Int) (h : 2 ^ 63 ≤ t' - t ∨ t' - t < -2 ^ 63) :
    run s [.init lla vNed rph t, .integ dV dTh t'] = .error (.ub .overflow) := by
  have hs : sub64 t' t = .error (.ub .overflow) := by
    rw [sub64, if_neg (by omega)]
  simp only [run, call, init_eval, osimp, integrate, keepPrev, rd, stamp, hs]

/-- three calls one microsecond apart satisfy the hypothesis of `C52_initialized_always_succeeds`, two extreme ones that of `C52_time_overflow` -/
example (v : V3 α) : TimesFit (0 : Int) [.integ v v 1, .integ v v 2] ∧ ((2 : Int) ^ 63 ≤ 2 ^ 62 - -(2 ^ 62)) := by
  refine ⟨?_, by norm_num⟩
  simp only [TimesFit]; norm_num

/-! ## C51 -/

theorem run_append (cs ds : List (Call α)) (s : St α) : run s (cs ++ ds) = (run s cs >>= fun r => run r.2 ds >>= fun q => .ok (r.1 ++ q.1, q.2)) := by
  induction cs generalizing s with
  | nil =>
    simp only [List.nil_append, run, osimp]
    cases run s ds <;> rfl
  | cons c cs ih =>
    simp only [List.cons_append, run]
    cases call s c with
    | error e => rfl
    | ok r =>
      simp only [osimp, ih]
      cases run r.2 cs with
      | error e => rfl
      | ok q =>
        simp only [osimp]
        cases run q.2 ds <;> rfl

theorem run_split (cs ds : List (Call α)) (s s' : St α) (bs : List Bool) (h : run s (cs ++ ds) = .ok (bs, s')) :
    ∃ b1 s1 b2, run s cs = .ok (b1, s1) ∧ run s1 ds = .ok (b2, s') := by
  rw [run_append] at h
  cases h1 : run s cs with
  | error e => rw [h1] at h; cases h
  | ok r =>
    rw [h1, Out.ok_bind] at h
    cases h2 : run r.2 ds with
    | error e => rw [h2] at h; cases h
    | ok q =>
      rw [h2, Out.ok_bind] at h
      injection h with h; injection h with h3 h4
      exact ⟨r.1, r.2, q.1, rfl, by rw [h2, ← h4]⟩

/-- the fields that a completed call leaves behind -/
theorem call_times (s : St α) (c : Call α) (r : Bool × St α) (h : call s c = .ok r) : r.2.tov = some c.tov := by
  cases c with
  | init l v rph t => simp only [call, init_eval] at h; cases h; rfl
  | integ dV dTh t =>
    simp only [call] at h
    cases h1 : s.lla with
    | none => simp only [integrate, keepPrev, h1, rd, osimp] at h; cases h
    | some lla =>
    cases h2 : s.vNed with
    | none => simp only [integrate, keepPrev, h1, h2, rd, osimp] at h; cases h
    | some v =>
    cases h3 : s.RB2N with
    | none => simp only [integrate, keepPrev, h1, h2, h3, rd, osimp] at h; cases h
    | some R =>
    cases h4 : s.tov with
    | none => simp only [integrate, keepPrev, h1, h2, h3, h4, rd, osimp] at h; cases h
    | some t0 =>
    by_cases hf : -2 ^ 63 ≤ t - t0 ∧ t - t0 < 2 ^ 63
    · rw [integrate_eval s lla v dV dTh R t0 t ⟨h1, h2, h3, h4⟩ hf] at h
      cases h; rfl
    · have hs : sub64 t t0 = .error (.ub .overflow) := by rw [sub64, if_neg hf]
      simp only [integrate, keepPrev, h1, h2, h3, h4, rd, osimp, stamp, hs] at h
      cases h

/-- C51: time bookkeeping. After every history that completed and ended with an `integrate` call, the stored time is the one of the last call
and `dt_` is its difference, in seconds, to the time of the call before it; the other stored times do not matter. -/
theorem C51_time_bookkeeping (s s' : St α) (cs : List (Call α)) (c : Call α) (dV dTh : V3 α) (t : Int) (bs : List Bool)
    (h : run s (cs ++ [c, .integ dV dTh t]) = .ok (bs, s')) :
    s'.tov = some t ∧ s'.dt = some (Flt.ofInt (t - c.tov) / Flt.lit 1000000) := by
  obtain ⟨_, s1, _, -, e1⟩ := run_split cs _ _ _ _ h
  cases h2 : call s1 c with
  | error e => simp only [run, h2, osimp] at e1; cases e1
  | ok r =>
  have ht := call_times s1 c r h2
  simp only [run, h2, osimp] at e1
  rw [call] at e1
  cases h3 : integrate r.2 dV dTh t with
  | error e => simp only [h3, osimp] at e1; cases e1
  | ok q =>
  simp only [h3, osimp] at e1
  injection e1 with e1; injection e1 with _ e1
  subst e1
  refine ⟨call_times r.2 (.integ dV dTh t) q h3, ?_⟩
  cases g1 : r.2.lla with
  | none => simp only [integrate, keepPrev, g1, rd, osimp] at h3; cases h3
  | some lla =>
  cases g2 : r.2.vNed with
  | none => simp only [integrate, keepPrev, g1, g2, rd, osimp] at h3; cases h3
  | some v =>
  cases g3 : r.2.RB2N with
  | none => simp only [integrate, keepPrev, g1, g2, g3, rd, osimp] at h3; cases h3
  | some R =>
  by_cases hf : -2 ^ 63 ≤ t - c.tov ∧ t - c.tov < 2 ^ 63
  · rw [integrate_eval r.2 lla v dV dTh R c.tov t ⟨g1, g2, g3, ht⟩ hf] at h3
    cases h3
    simp only [show (1e6 : ℚ) = 1000000 by norm_num]
  · have hs : sub64 t c.tov = .error (.ub .overflow) := by rw [sub64, if_neg hf]
    simp only [integrate, keepPrev, g1, g2, g3, ht, rd, osimp, stamp, hs] at h3
    cases h3

/-- C51: after `initialize` the stored time is the one supplied. -/
theorem C51_initialize_time (s : St α) (lla vNed rph : V3 α) (t : Int) : (Strapdown.init s lla vNed rph t).2.tov = some t := rfl

end generic

/-- the hypothesis of `C51_time_bookkeeping` is met by a history over the reals -/
example (v : V3 ℝ) : ∃ bs s', run ({} : St ℝ) ([.init v v v 0, .integ v v 3] ++ [.integ v v 10, .integ v v 25]) = .ok (bs, s') := by
  obtain ⟨s', e⟩ := C52_initialized_always_succeeds ({} : St ℝ) v v v 0 [.integ v v 3, .integ v v 10, .integ v v 25]
    (timesFit_of_nonneg _ _ (by norm_num) (by simp [Call.tov]))
  exact ⟨_, s', e⟩

/-! ## Attitude: C48, C49, C50 -/

/-- the increment is a rotation -/
theorem attInc_isRot (φ : V3 ℝ) (h : φ ≠ 0) : IsRot (attInc φ) := by
  have hv : ∀ v, attInc φ *ᵥ v = turn ((len3 φ)⁻¹ • φ) (len3 φ) v := fun v => attInc_R φ v h
  have hu := unit_of h
  generalize (len3 φ)⁻¹ • φ = n at *
  generalize len3 φ = θ at *
  have hM : attInc φ = Attitude.dcmG ![Real.cos (-θ / 2), Real.sin (-θ / 2) * n 0, Real.sin (-θ / 2) * n 1, Real.sin (-θ / 2) * n 2] := by
    refine Matrix.ext_of_mulVec_single fun i => ?_
    rw [hv, (dcm_half_angle n hu (-θ) _).2, neg_neg]
  rw [hM]
  apply Attitude.dcm_isRot
  intro h0
  have := (dcm_half_angle n hu (-θ) 0).1
  rw [h0] at this
  simp [sq4] at this

theorem attInc_X (φ : V3 ℝ) (h : φ ≠ 0) : attInc (finV φ) = finM (attInc φ) := by
  have hl := (len3_pos h).ne'
  have hm : Real.sqrt (φ ⬝ᵥ φ) = len3 φ := by rw [← vnorm_len3, R_vnorm]
  have hk : (skewSymmetric (finV φ)).2 = finM (skewSymmetric φ).2 := by
    ext i j; fin_cases i <;> fin_cases j <;> simp [skewSymmetric, xsimp, rsimp]
  simp only [attInc, X_vnorm, hk, X_sin, X_cos, R_vnorm, hm]
  simp only [xsimp]
  rw [fin_div _ _ hl, fin_div _ _ (mul_ne_zero hl hl)]
  simp only [xsimp, rsimp]

/-- what an `integrate` call with a finite non-zero angle increment does to a finite attitude -/
theorem integrate_att (s : St XR) (lla vNed dV : V3 XR) (R : M3 ℝ) (t t' : Int) (φ : V3 ℝ) (h : Ready s lla vNed (finM R) t) (hφ : φ ≠ 0)
    (hf : -2 ^ 63 ≤ t' - t ∧ t' - t < 2 ^ 63) :
    ∃ s' l v, integrate s dV (finV φ) t' = .ok (true, s') ∧ Ready s' l v (finM (R * attInc φ)) t' := by
  refine ⟨_, _, _, integrate_eval s lla vNed dV (finV φ) (finM R) t t' h hf, rfl, rfl, ?_, rfl⟩
  simp only [attInc_X φ hφ, X_mmul]

/-- calls with finite angles: any initial roll, pitch and heading; non-zero angle increments -/
def FiniteAngles : Call XR → Prop
  | .init _ _ rph _ => ∃ e : V3 ℝ, rph = finV e
  | .integ _ dTh _ => ∃ φ : V3 ℝ, φ ≠ 0 ∧ dTh = finV φ

/-- C48: the attitude stays orthonormal with determinant +1 (and free of NaN) forever: after `initialize` with any finite attitude and any history of
further calls with finite non-zero angle increments, whatever the positions, velocities and velocity increments are (NaN included). -/
theorem C48_orthonormal (s : St XR) (lla vNed : V3 XR) (e : V3 ℝ) (t : Int) (cs : List (Call XR)) (hf : TimesFit t cs)
    (hc : ∀ c ∈ cs, FiniteAngles c) :
    ∃ s' R, run s (.init lla vNed (finV e) t :: cs) = .ok (List.replicate (cs.length + 1) true, s') ∧ s'.RB2N = some (finM R) ∧ IsRot R := by
  have key : ∀ (cs : List (Call XR)) (s : St XR) (l v : V3 XR) (R : M3 ℝ) (t : Int), Ready s l v (finM R) t → IsRot R → TimesFit t cs →
      (∀ c ∈ cs, FiniteAngles c) → ∃ s' R', run s cs = .ok (List.replicate cs.length true, s') ∧ s'.RB2N = some (finM R') ∧ IsRot R' := by
    intro cs
    induction cs with
    | nil => exact fun s l v R t h hR _ _ => ⟨s, R, rfl, h.2.2.1, hR⟩
    | cons c cs ih =>
      intro s l v R t h hR hf hc
      have hc' : ∀ c ∈ cs, FiniteAngles c := fun d hd => hc d (by simp [hd])
      cases c with
      | init l' v' rph t' =>
        obtain ⟨e, rfl⟩ := hc (.init l' v' rph t') (by simp)
        have h1 := init_ready s l' v' (finV e) t'
        rw [C34_finite] at h1
        obtain ⟨s2, R2, e2, g⟩ := ih _ _ _ _ _ h1 (bodyToNed_isRot _ _ _).transpose hf hc'
        refine ⟨s2, R2, ?_, g⟩
        rw [run, call, Out.ok_bind, e2]; rfl
      | integ dV dTh t' =>
        obtain ⟨φ, hφ, rfl⟩ := hc (.integ dV dTh t') (by simp)
        obtain ⟨s1, l1, v1, e1, h1⟩ := integrate_att s l v dV R t t' φ h hφ hf.1
        obtain ⟨s2, R2, e2, g⟩ := ih _ _ _ _ _ h1 (hR.mul (attInc_isRot φ hφ)) hf.2 hc'
        refine ⟨s2, R2, ?_, g⟩
        rw [run, call, e1, Out.ok_bind, e2]; rfl
  have h1 := init_ready s lla vNed (finV e) t
  rw [C34_finite] at h1
  obtain ⟨s2, R2, e2, g⟩ := key cs _ _ _ _ _ h1 (bodyToNed_isRot _ _ _).transpose hf hc
  refine ⟨s2, R2, ?_, g⟩
  rw [run, call, Out.ok_bind, e2]; rfl

/-- a history with a turn of 90 degrees about the third axis, with garbage velocity increments, and a re-initialisation -/
example : TimesFit 5 [Call.integ (fun _ => nan) (finV ![0, 0, Real.pi / 2]) 9, .init (fun _ => nan) (fun _ => pinf) (finV 0) 2]
    ∧ ∀ c ∈ [Call.integ (fun _ => nan) (finV ![0, 0, Real.pi / 2]) 9, .init (fun _ => nan) (fun _ => pinf) (finV 0) 2], FiniteAngles c := by
  constructor
  · simp only [TimesFit]; norm_num
  · simp only [List.mem_cons, List.not_mem_nil, or_false, forall_eq_or_imp, forall_eq, FiniteAngles]
    refine ⟨⟨_, fun h => ?_, rfl⟩, _, rfl⟩
    have := congrFun h 2
    simp at this

/-! ## C50 -/

/-- the calls of a stretch of data without re-initialisation -/
def stretch (incs : List (V3 XR × V3 ℝ × Int)) : List (Call XR) := incs.map fun i => .integ i.1 (finV i.2.1) i.2.2

/-- the attitude after a stretch of data: the rotations by the angle increments, latest first, then the attitude before -/
theorem stretch_att (incs : List (V3 XR × V3 ℝ × Int)) (s : St XR) (l v : V3 XR) (R : M3 ℝ) (t : Int) (h : Ready s l v (finM R) t)
    (hf : TimesFit t (stretch incs)) (hc : ∀ i ∈ incs, i.2.1 ≠ 0) :
    ∃ bs s' R', run s (stretch incs) = .ok (bs, s') ∧ s'.RB2N = some (finM R')
      ∧ ∀ u, R' *ᵥ u = R *ᵥ incs.foldr (fun i w => rotByVec i.2.1 w) u := by
  induction incs generalizing s l v R t with
  | nil => exact ⟨_, s, R, rfl, h.2.2.1, fun u => rfl⟩
  | cons i incs ih =>
    obtain ⟨dV, φ, t'⟩ := i
    have hφ : φ ≠ 0 := hc (dV, φ, t') (by simp)
    obtain ⟨s1, l1, v1, e1, h1⟩ := integrate_att s l v dV R t t' φ h hφ hf.1
    obtain ⟨bs, s2, R2, e2, g, g2⟩ := ih _ _ _ _ _ h1 hf.2 fun j hj => hc j (by simp [hj])
    refine ⟨true :: bs, s2, R2, ?_, g, fun u => ?_⟩
    · have : stretch ((dV, φ, t') :: incs) = .integ dV (finV φ) t' :: stretch incs := rfl
      rw [this, run, call, e1, Out.ok_bind, e2]; rfl
    · rw [g2, List.foldr_cons, ← mulVec_mulVec, attInc_R φ _ hφ]

theorem turn_zero (n v : Fin 3 → ℝ) : turn n 0 v = v := by simp [turn]

theorem turn_eq (n : Fin 3 → ℝ) (θ : ℝ) (v : Fin 3 → ℝ) : turn n θ v =
    ![Real.cos θ * v 0 + Real.sin θ * (n 1 * v 2 - n 2 * v 1) + (1 - Real.cos θ) * (n 0 * v 0 + n 1 * v 1 + n 2 * v 2) * n 0,
      Real.cos θ * v 1 + Real.sin θ * (n 2 * v 0 - n 0 * v 2) + (1 - Real.cos θ) * (n 0 * v 0 + n 1 * v 1 + n 2 * v 2) * n 1,
      Real.cos θ * v 2 + Real.sin θ * (n 0 * v 1 - n 1 * v 0) + (1 - Real.cos θ) * (n 0 * v 0 + n 1 * v 1 + n 2 * v 2) * n 2] := by
  ext i
  simp only [turn, Pi.add_apply, Pi.smul_apply, smul_eq_mul, dotProduct, Fin.sum_univ_three]
  fin_cases i <;> simp [cross_apply]

theorem turn_add (n : Fin 3 → ℝ) (hn : n 0 ^ 2 + n 1 ^ 2 + n 2 ^ 2 = 1) (a b : ℝ) (v : Fin 3 → ℝ) : turn n a (turn n b v) = turn n (a + b) v := by
  simp only [turn_eq, Real.cos_add, Real.sin_add]
  generalize Real.cos a = ca
  generalize Real.sin a = sa
  generalize Real.cos b = cb
  generalize Real.sin b = sb
  ext i
  fin_cases i <;> simp
  · linear_combination (-sa * sb * v 0 + (1 - ca) * (1 - cb) * (n 0 * v 0 + n 1 * v 1 + n 2 * v 2) * n 0) * hn
  · linear_combination (-sa * sb * v 1 + (1 - ca) * (1 - cb) * (n 0 * v 0 + n 1 * v 1 + n 2 * v 2) * n 1) * hn
  · linear_combination (-sa * sb * v 2 + (1 - ca) * (1 - cb) * (n 0 * v 0 + n 1 * v 1 + n 2 * v 2) * n 2) * hn

theorem rotByVec_axis (n : Fin 3 → ℝ) (hn : n 0 ^ 2 + n 1 ^ 2 + n 2 ^ 2 = 1) (θ : ℝ) (v : Fin 3 → ℝ) (hθ : θ ≠ 0) :
    rotByVec (θ • n) v = turn n θ v := by
  have h1 : len3 n = 1 := by rw [len3, hn, Real.sqrt_one]
  rw [rotByVec, len3_smul, h1, mul_one, smul_smul]
  rcases lt_or_gt_of_ne hθ with h | h
  · rw [abs_of_neg h, inv_neg, neg_mul, inv_mul_cancel₀ hθ, neg_one_smul, turn_neg, neg_neg]
  · rw [abs_of_pos h, inv_mul_cancel₀ hθ, one_smul]

/-- C50: increments about one fixed axis add up. After a stretch of data whose angle increments are `θ₁ n, θ₂ n, …` the body has turned by exactly
`θ₁ + θ₂ + …` about `n`; if the angles sum to zero the attitude is exactly the initial one. -/
theorem C50_single_axis (n : V3 ℝ) (hn : n 0 ^ 2 + n 1 ^ 2 + n 2 ^ 2 = 1) (steps : List (V3 XR × ℝ × Int)) (hθ : ∀ i ∈ steps, i.2.1 ≠ 0)
    (s : St XR) (l v : V3 XR) (R : M3 ℝ) (t : Int) (h : s.lla = some l ∧ s.vNed = some v ∧ s.RB2N = some (finM R) ∧ s.tov = some t)
    (hf : TimesFit t (stretch (steps.map fun i => (i.1, i.2.1 • n, i.2.2)))) :
    ∃ bs s' R', run s (stretch (steps.map fun i => (i.1, i.2.1 • n, i.2.2))) = .ok (bs, s') ∧ s'.RB2N = some (finM R')
      ∧ (∀ u, R' *ᵥ u = R *ᵥ turn n (steps.map fun i => i.2.1).sum u)
      ∧ ((steps.map fun i => i.2.1).sum = 0 → R' = R) := by
  have hn0 : n ≠ 0 := by rintro rfl; simp at hn
  obtain ⟨bs, s', R', e, g, g2⟩ := stretch_att (steps.map fun i => (i.1, i.2.1 • n, i.2.2)) s l v R t h hf (by
    intro i hi
    obtain ⟨j, hj, rfl⟩ := List.mem_map.1 hi
    exact smul_ne_zero (hθ j hj) hn0)
  have key : ∀ u, (steps.map fun i => (i.1, i.2.1 • n, i.2.2)).foldr (fun i w => rotByVec i.2.1 w) u
      = turn n (steps.map fun i => i.2.1).sum u := by
    intro u
    clear e g g2 hf h
    induction steps with
    | nil => simp [turn_zero]
    | cons i steps ih =>
      simp only [List.map_cons, List.foldr_cons, List.sum_cons]
      rw [ih fun j hj => hθ j (by simp [hj]), rotByVec_axis n hn _ _ (hθ i (by simp)), turn_add n hn]
  have g3 : ∀ u, R' *ᵥ u = R *ᵥ turn n (steps.map fun i => i.2.1).sum u := fun u => by rw [g2, key]
  refine ⟨bs, s', R', e, g, g3, fun h0 => ?_⟩
  refine Matrix.ext_of_mulVec_single fun i => ?_
  rw [g3, h0, turn_zero]

/-- a turn and the opposite turn about a slanted axis -/
example : (![0.6, 0, 0.8] : V3 ℝ) 0 ^ 2 + (![0.6, 0, 0.8] : V3 ℝ) 1 ^ 2 + (![0.6, 0, 0.8] : V3 ℝ) 2 ^ 2 = 1
    ∧ ∀ i ∈ [((finV 0 : V3 XR), (1.5 : ℝ), (10 : Int)), (finV 0, -1.5, 20)], i.2.1 ≠ 0 := by
  constructor
  · simp only [Matrix.cons_val]; norm_num
  · norm_num

/-! ## C49 -/

/-- velocity increments that are NaN make the whole step NaN -/
theorem rk4_nan (gN : V3 XR) (dt : XR) (y : Fin 6 → XR) : rk4G (fun _ => nan) gN dt y = fun _ => nan := by
  have h1 : ∀ y, ∀ i : Fin 6, 3 ≤ i.val → dynG (fun _ => nan) gN dt y i = nan := by
    intro y i hi
    fin_cases i <;> simp at hi <;> simp [dynG, vdiv, xsimp]
  have h2 : ∀ y : Fin 6 → XR, (∀ i : Fin 6, 3 ≤ i.val → y i = nan) → ∀ i, dynG (fun _ => nan) gN dt y i = nan := by
    intro y hy i
    have e3 := hy 3 (by decide); have e4 := hy 4 (by decide); have e5 := hy 5 (by decide)
    fin_cases i <;> simp [dynG, e3, e4, e5, xsimp]
  have hK2 : vsmul dt (dynG (fun _ => nan) gN dt (vadd y (vdiv (vsmul dt (dynG (fun _ => nan) gN dt y)) (Flt.lit 2)))) = fun _ => nan := by
    ext i
    rw [vsmul, h2, mul_nan]
    intro j hj
    rw [vadd, vdiv, vsmul, h1 y j hj, mul_nan, nan_div, add_nan]
  simp only [rk4G]
  rw [hK2]
  ext i
  simp [vadd, vsmul, xsimp]

theorem fsum_nan {n : ℕ} (f : Fin (n + 1) → XR) (h : ∀ i, f i = nan) : fsum f = nan :=
  eval_nan f _ 0 (((Flt.order XR).perm n).mem_iff.2 (List.mem_finRange 0)) (h 0)

/-- the attitude matrix with NaN in every entry -/
def nanM : M3 XR := Matrix.of fun _ _ => nan

theorem mmul_nan_right (R : M3 XR) : mmul R nanM = nanM := by
  ext i j
  exact fsum_nan _ fun l => mul_nan _
theorem mmul_nan_left (R : M3 XR) : mmul nanM R = nanM := by
  ext i j
  exact fsum_nan _ fun l => nan_mul _
theorem mvec_nan (v : V3 XR) : mvec nanM v = fun _ => nan := by
  ext i
  exact fsum_nan _ fun l => nan_mul _

theorem attInc_zero : attInc (finV (0 : V3 ℝ)) = nanM := by
  simp only [attInc, X_vnorm, dotProduct_zero, Real.sqrt_zero, X_sin, X_cos, Real.sin_zero, Real.cos_zero, fin_mul, mul_zero, xsimp, sub_self]
  ext i j
  simp [madd, msmul, xsimp, nanM]

/-- everything but the bookkeeping of time is NaN -/
def AllNaN (s : St XR) : Prop := s.lla = some (fun _ => nan) ∧ s.vNed = some (fun _ => nan) ∧ s.RB2N = some nanM

theorem nan3 (Y : Fin 6 → XR) (h : Y = fun _ => nan) : (![Y 0, Y 1, Y 2] : V3 XR) = (fun _ => nan) ∧ (![Y 3, Y 4, Y 5] : V3 XR) = fun _ => nan := by
  subst h
  constructor <;> (ext i; fin_cases i <;> rfl)

/-- C49 fails: a zero angle increment (a gyroscope that reports no rotation) turns attitude, position and velocity into NaN, from every state and for every
velocity increment and time, and the call reports success. (Full claim: the attitude is unchanged.) -/
theorem C49_zero_increment_fails (s : St XR) (l v dV : V3 XR) (R : M3 XR) (t t' : Int)
    (h : s.lla = some l ∧ s.vNed = some v ∧ s.RB2N = some R ∧ s.tov = some t) (hf : -2 ^ 63 ≤ t' - t ∧ t' - t < 2 ^ 63) :
    ∃ s', integrate s dV (finV 0) t' = .ok (true, s') ∧ AllNaN s' := by
  refine ⟨_, integrate_eval s l v dV (finV 0) R t t' h hf, ?_⟩
  have hY : nextY l v dV R (finV 0) (t' - t) = fun _ => nan := by
    rw [nextY, attInc_zero, mmul_nan_right, mvec_nan, rk4_nan]
  obtain ⟨h1, h2⟩ := nan3 _ hY
  rw [AllNaN, h1, h2, attInc_zero, mmul_nan_right]
  exact ⟨rfl, rfl, rfl⟩

/-- C49 fails for good: the navigator never recovers from it. Whatever data follows, everything stays NaN until the next `initialize`, while every call
reports success. -/
theorem C49_never_recovers_fails (s : St XR) (t : Int) (h : AllNaN s) (ht : s.tov = some t) (incs : List (V3 XR × V3 XR × Int))
    (hf : TimesFit t (incs.map fun i => Call.integ i.1 i.2.1 i.2.2)) :
    ∃ s', run s (incs.map fun i => Call.integ i.1 i.2.1 i.2.2) = .ok (List.replicate incs.length true, s') ∧ AllNaN s' := by
  induction incs generalizing s t with
  | nil => exact ⟨s, rfl, h⟩
  | cons i incs ih =>
    obtain ⟨dV, dTh, t'⟩ := i
    have e1 := integrate_eval s (fun _ => nan) (fun _ => nan) dV dTh nanM t t' ⟨h.1, h.2.1, h.2.2, ht⟩ hf.1
    have hY : nextY (fun _ => nan) (fun _ => nan) dV nanM dTh (t' - t) = fun _ => nan := by
      rw [nextY, mmul_nan_left, mvec_nan, rk4_nan]
    obtain ⟨h1, h2⟩ := nan3 _ hY
    rw [h1, h2, mmul_nan_left] at e1
    obtain ⟨s2, e2, g⟩ := ih (St.mk (some fun _ => nan) (some fun _ => nan) (some nanM) (some t')
      (some (Flt.ofInt (t' - t) / Flt.lit 1e6)) (some fun _ => nan) (some fun _ => nan) (some nanM) (some t)) t' ⟨rfl, rfl, rfl⟩ rfl hf.2
    refine ⟨s2, ?_, g⟩
    rw [List.map_cons, run, call, e1, Out.ok_bind, e2]; rfl

/-- C49, what does hold: a small non-zero increment moves no body vector by more than the size of the increment times its length, so the attitude is a
continuous function of the increments and tends to the unchanged attitude. (Full claim: equality at zero; missing: zero itself, where the code divides by zero.) -/
theorem C49_small_increment_partial (s : St XR) (l v dV : V3 XR) (R : M3 ℝ) (hR : IsRot R) (t t' : Int) (φ : V3 ℝ) (hφ : φ ≠ 0)
    (h : s.lla = some l ∧ s.vNed = some v ∧ s.RB2N = some (finM R) ∧ s.tov = some t) (hf : -2 ^ 63 ≤ t' - t ∧ t' - t < 2 ^ 63) :
    ∃ s' R', integrate s dV (finV φ) t' = .ok (true, s') ∧ s'.RB2N = some (finM R') ∧ ∀ u, len3 (R' *ᵥ u - R *ᵥ u) ≤ len3 φ * len3 u := by
  obtain ⟨s', l', v', e, g⟩ := integrate_att s l v dV R t t' φ h hφ hf
  refine ⟨s', _, e, g.2.2.1, fun u => ?_⟩
  rw [← mulVec_mulVec, attInc_R φ u hφ, ← mulVec_sub]
  have hlen : ∀ w, len3 (R *ᵥ w) = len3 w := by
    intro w
    have := hR.dot w w
    simp only [dotProduct, Fin.sum_univ_three] at this
    simp only [len3, sq]
    rw [this]
  rw [hlen, rotByVec]
  have hu := unit_of hφ
  have hp := len3_pos hφ
  generalize (len3 φ)⁻¹ • φ = n at *
  generalize len3 φ = θ at *
  refine Real.sqrt_le_iff.2 ⟨mul_nonneg hp.le (Real.sqrt_nonneg _), ?_⟩
  rw [mul_pow, len3_sq]
  have hsc := Real.sin_sq_add_cos_sq θ
  have hb : 1 - θ ^ 2 / 2 ≤ Real.cos θ := Real.one_sub_sq_div_two_le_cos
  have e1 : (turn n θ u - u) 0 ^ 2 + (turn n θ u - u) 1 ^ 2 + (turn n θ u - u) 2 ^ 2
      = 2 * (1 - Real.cos θ) * (u 0 ^ 2 + u 1 ^ 2 + u 2 ^ 2 - (n 0 * u 0 + n 1 * u 1 + n 2 * u 2) ^ 2) := by
    simp only [turn_eq, Pi.sub_apply, Matrix.cons_val]
    generalize Real.cos θ = c at *
    generalize Real.sin θ = σ at *
    grind
  rw [e1]
  have hc1 := Real.cos_le_one θ
  have h2 : 0 ≤ u 0 ^ 2 + u 1 ^ 2 + u 2 ^ 2 := by positivity
  have h3 : 0 ≤ (n 0 * u 0 + n 1 * u 1 + n 2 * u 2) ^ 2 := by positivity
  generalize u 0 ^ 2 + u 1 ^ 2 + u 2 ^ 2 = U at *
  generalize (n 0 * u 0 + n 1 * u 1 + n 2 * u 2) ^ 2 = W at *
  nlinarith [mul_nonneg (sub_nonneg.2 hc1) h3, mul_nonneg (sub_nonneg.2 hb) h2]

/-- an initialised navigator satisfies the hypotheses about the state -/
example (l v : V3 XR) (e : V3 ℝ) : ∃ R, IsRot R ∧ (Strapdown.init {} l v (finV e) 0).2.RB2N = some (finM R) :=
  ⟨_, (bodyToNed_isRot (e 0) (e 1) (e 2)).transpose, by rw [init_eval, C34_finite]⟩

end NavFuse.Props
