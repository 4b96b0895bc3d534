import Verif.Props.Strapdown
import Verif.Rnd

/-! # Properties C122 and C123: symmetries of the navigator -/

set_option linter.unusedSectionVars false
set_option linter.unusedSimpArgs false

namespace NavFuse.Props
open NavFuse.Spec NavFuse.Strapdown NavFuse.NavUtils

variable {α : Type} [Add α] [Sub α] [Mul α] [Div α] [Neg α] [Flt α]

/-- the same, after a successful outcome -/
def Out.after {β γ : Type} (o : Out β) (f : β → γ) : Out γ := o >>= fun b => .ok (f b)

/-! ## C122 -/

/-- how signs behave in arithmetic that treats positive and negative numbers alike -/
structure SignLaws (α : Type) [Add α] [Sub α] [Mul α] [Div α] [Neg α] [Flt α] : Prop where
  neg_neg : ∀ a : α, - -a = a
  neg_zero : -(Flt.lit 0 : α) = Flt.lit 0
  neg_add : ∀ a b : α, -(a + b) = -a + -b
  sub_eq : ∀ a b : α, a - b = a + -b
  neg_mul : ∀ a b : α, -a * b = -(a * b)
  mul_neg : ∀ a b : α, a * -b = -(a * b)
  neg_div : ∀ a b : α, -a / b = -(a / b)
  sin_neg : ∀ a : α, Flt.sin (-a) = -Flt.sin a
  cos_neg : ∀ a : α, Flt.cos (-a) = Flt.cos a
  sq_neg : ∀ a : α, Flt.powi (-a) 2 = Flt.powi a 2

/-- mirror image in the east-down plane (or, for body axes, in the plane of the second and third axis) -/
def mir (v : V3 α) : V3 α := ![-v 0, v 1, v 2]
/-- mirror image of a rotation vector or of roll, pitch and heading -/
def mirRot (v : V3 α) : V3 α := ![v 0, -v 1, -v 2]
/-- mirror image of a rotation matrix -/
def mirM (R : M3 α) : M3 α := !![R 0 0, -R 0 1, -R 0 2; -R 1 0, R 1 1, R 1 2; -R 2 0, R 2 1, R 2 2]

/-- the southern twin of a state of the navigator: latitude, north velocity and attitude mirrored -/
def mirSt (s : St α) : St α :=
  { lla := s.lla.map mir, vNed := s.vNed.map mir, RB2N := s.RB2N.map mirM, tov := s.tov, dt := s.dt,
    llaPrev := s.llaPrev.map mir, vNedPrev := s.vNedPrev.map mir, RB2NPrev := s.RB2NPrev.map mirM, tovPrev := s.tovPrev }

/-- the southern twin of a call -/
def mirCall : Call α → Call α
  | .init lla vNed rph t => .init (mir lla) (mir vNed) (mirRot rph) t
  | .integ dV dTh t => .integ (mir dV) (mirRot dTh) t

/-- mirror image of latitude, longitude, altitude and velocity -/
def mir6 (y : Fin 6 → α) : Fin 6 → α := ![-y 0, y 1, y 2, -y 3, y 4, y 5]

/-- a map of states and calls that every single call respects is respected by whole runs -/
theorem run_equi (Φ : St α → St α) (φ : Call α → Call α)
    (h : ∀ s c, call (Φ s) (φ c) = Out.after (call s c) fun r => (r.1, Φ r.2)) (s : St α) (cs : List (Call α)) :
    run (Φ s) (cs.map φ) = Out.after (run s cs) fun r => (r.1, Φ r.2) := by
  induction cs generalizing s with
  | nil => rfl
  | cons c cs ih =>
    simp only [List.map_cons, run, h]
    cases call s c with
    | error e => rfl
    | ok r =>
      simp only [Out.after, osimp]
      rw [ih]
      cases run r.2 cs with
      | error e => rfl
      | ok q => simp only [Out.after, osimp]

/-- what has to be shown for `integrate` -/
theorem integrate_equi (s s' : St α) (dV dTh dV' dTh' : V3 α) (t t' : Int) (Φ : St α → St α) (f g : V3 α → V3 α) (F : M3 α → M3 α)
    (e : Int → Int) (h1 : s'.lla = s.lla.map f) (h2 : s'.vNed = s.vNed.map g) (h3 : s'.RB2N = s.RB2N.map F) (h4 : s'.tov = s.tov.map e)
    (ht : ∀ t0, s.tov = some t0 → t' - e t0 = t - t0)
    (hΦ : ∀ lla vNed R t0, Ready s lla vNed R t0 → t' - e t0 = t - t0 → Ready s' (f lla) (g vNed) (F R) (e t0) →
      ({ lla := some ![nextY (f lla) (g vNed) dV' (F R) dTh' (t - t0) 0, nextY (f lla) (g vNed) dV' (F R) dTh' (t - t0) 1, nextY (f lla) (g vNed) dV' (F R) dTh' (t - t0) 2],
         vNed := some ![nextY (f lla) (g vNed) dV' (F R) dTh' (t - t0) 3, nextY (f lla) (g vNed) dV' (F R) dTh' (t - t0) 4, nextY (f lla) (g vNed) dV' (F R) dTh' (t - t0) 5],
         RB2N := some (mmul (F R) (attInc dTh')), tov := some t', dt := some (Flt.ofInt (t - t0) / Flt.lit 1e6),
         llaPrev := some (f lla), vNedPrev := some (g vNed), RB2NPrev := some (F R), tovPrev := some (e t0) } : St α)
      = Φ { lla := some ![nextY lla vNed dV R dTh (t - t0) 0, nextY lla vNed dV R dTh (t - t0) 1, nextY lla vNed dV R dTh (t - t0) 2],
            vNed := some ![nextY lla vNed dV R dTh (t - t0) 3, nextY lla vNed dV R dTh (t - t0) 4, nextY lla vNed dV R dTh (t - t0) 5],
            RB2N := some (mmul R (attInc dTh)), tov := some t, dt := some (Flt.ofInt (t - t0) / Flt.lit 1e6),
            llaPrev := some lla, vNedPrev := some vNed, RB2NPrev := some R, tovPrev := some t0 }) :
    integrate s' dV' dTh' t' = Out.after (integrate s dV dTh t) fun r => (r.1, Φ r.2) := by
  cases a1 : s.lla with
  | none => simp [integrate, keepPrev, h1, a1, rd, osimp, Out.after, Out.ub]
  | some lla =>
  cases a2 : s.vNed with
  | none => simp [integrate, keepPrev, h1, h2, a1, a2, rd, osimp, Out.after, Out.ub]
  | some vNed =>
  cases a3 : s.RB2N with
  | none => simp [integrate, keepPrev, h1, h2, h3, a1, a2, a3, rd, osimp, Out.after, Out.ub]
  | some R =>
  cases a4 : s.tov with
  | none => simp [integrate, keepPrev, h1, h2, h3, h4, a1, a2, a3, a4, rd, osimp, Out.after, Out.ub]
  | some t0 =>
  have r : Ready s lla vNed R t0 := ⟨a1, a2, a3, a4⟩
  have r' : Ready s' (f lla) (g vNed) (F R) (e t0) := ⟨by rw [h1, a1]; rfl, by rw [h2, a2]; rfl, by rw [h3, a3]; rfl, by rw [h4, a4]; rfl⟩
  have hd := ht t0 a4
  by_cases hb : -2 ^ 63 ≤ t - t0 ∧ t - t0 < 2 ^ 63
  · rw [integrate_eval s lla vNed dV dTh R t0 t r hb, integrate_eval s' _ _ dV' dTh' _ _ t' r' (by rw [hd]; exact hb), hd,
      hΦ lla vNed R t0 r hd r']
    rfl
  · have b1 : sub64 t t0 = Out.ub .overflow := by rw [sub64, if_neg hb]
    have b2 : sub64 t' (e t0) = Out.ub .overflow := by rw [sub64, hd, if_neg hb]
    simp [integrate, keepPrev, stamp, r.1, r.2.1, r.2.2.1, r.2.2.2, r'.1, r'.2.1, r'.2.2.1, r'.2.2.2, rd, osimp, b1, b2, Out.after, Out.ub]

section mirror
variable (L : SignLaws α)
include L

theorem fsum_neg {n : ℕ} (f : Fin (n + 1) → α) : fsum (fun i => -f i) = -fsum f := by
  have key : ∀ t : SumTree (Fin (n + 1)), t.eval (fun i => -f i) = -t.eval f := by
    intro t
    induction t with
    | leaf i => rfl
    | node s t hs ht => rw [SumTree.eval, SumTree.eval, hs, ht, L.neg_add]
  exact key _

theorem mmul_mir (A B : M3 α) : mmul (mirM A) (mirM B) = mirM (mmul A B) := by
  have p : ∀ i j, (∀ l, mirM A i l * mirM B l j = A i l * B l j) → mmul (mirM A) (mirM B) i j = mmul A B i j :=
    fun i j h => congrArg fsum (funext h)
  have m : ∀ i j, (∀ l, mirM A i l * mirM B l j = -(A i l * B l j)) → mmul (mirM A) (mirM B) i j = -mmul A B i j :=
    fun i j h => (congrArg fsum (funext h)).trans (fsum_neg L _)
  ext i j
  fin_cases i <;> fin_cases j <;>
    first
    | (refine (p _ _ fun l => ?_).trans ?_
       · fin_cases l <;> simp [mirM, L.neg_mul, L.mul_neg, L.neg_neg]
       · simp [mirM])
    | (refine (m _ _ fun l => ?_).trans ?_
       · fin_cases l <;> simp [mirM, L.neg_mul, L.mul_neg, L.neg_neg]
       · simp [mirM])

theorem mvec_mir (A : M3 α) (v : V3 α) : mvec (mirM A) (mir v) = mir (mvec A v) := by
  have p : ∀ i, (∀ l, mirM A i l * mir v l = A i l * v l) → mvec (mirM A) (mir v) i = mvec A v i :=
    fun i h => congrArg fsum (funext h)
  have m : ∀ i, (∀ l, mirM A i l * mir v l = -(A i l * v l)) → mvec (mirM A) (mir v) i = -mvec A v i :=
    fun i h => (congrArg fsum (funext h)).trans (fsum_neg L _)
  ext i
  fin_cases i
  · refine (m 0 fun l => ?_).trans (by simp [mir])
    fin_cases l <;> simp [mirM, mir, L.neg_mul, L.mul_neg]
  · refine (p 1 fun l => ?_).trans (by simp [mir])
    fin_cases l <;> simp [mirM, mir, L.neg_mul, L.mul_neg, L.neg_neg]
  · refine (p 2 fun l => ?_).trans (by simp [mir])
    fin_cases l <;> simp [mirM, mir, L.neg_mul, L.mul_neg, L.neg_neg]

theorem madd_mir (A B : M3 α) : madd (mirM A) (mirM B) = mirM (madd A B) := by
  ext i j
  fin_cases i <;> fin_cases j <;> simp [madd, mirM, L.neg_add]

theorem msmul_mir (s : α) (A : M3 α) : msmul s (mirM A) = mirM (msmul s A) := by
  ext i j
  fin_cases i <;> fin_cases j <;> simp [msmul, mirM, L.mul_neg]

theorem mid_mir : mirM (mid : M3 α) = mid := by
  ext i j
  fin_cases i <;> fin_cases j <;> simp [mid, mirM, L.neg_zero]

theorem skew_mir (v : V3 α) : (skewSymmetric (mirRot v)).2 = mirM (skewSymmetric v).2 := by
  ext i j
  fin_cases i <;> fin_cases j <;> simp [skewSymmetric, mirM, mirRot, L.neg_neg, L.neg_zero]

theorem vnorm_mir (v : V3 α) : vnorm (mirRot v) = vnorm v := by
  have h : ∀ l, mirRot v l * mirRot v l = v l * v l := by
    intro l
    fin_cases l <;> simp [mirRot, L.neg_mul, L.mul_neg, L.neg_neg]
  simp only [vnorm, vsqNorm, vdot, h]

theorem attInc_mir (v : V3 α) : attInc (mirRot v) = mirM (attInc v) := by
  simp only [attInc, vnorm_mir L, skew_mir L]
  rw [← madd_mir L, ← madd_mir L, mid_mir L, ← msmul_mir L, ← mmul_mir L, ← msmul_mir L]

theorem euler_mir (e : V3 α) : (Attitude.euler2Dcm (mirRot e)).2 = mirM (Attitude.euler2Dcm e).2 := by
  simp only [Attitude.euler2Dcm]
  rw [← mmul_mir L, ← mmul_mir L]
  congr 1
  · congr 1
    · ext i j; fin_cases i <;> fin_cases j <;> simp [mirM, mirRot, L.neg_zero]
    · ext i j; fin_cases i <;> fin_cases j <;> simp [mirM, mirRot, L.neg_zero, L.sin_neg, L.cos_neg]
  · ext i j; fin_cases i <;> fin_cases j <;> simp [mirM, mirRot, L.neg_zero, L.sin_neg, L.cos_neg]

theorem gravity_mir (lat h : α) : (Gravity.gravityNed (-lat) h).2 = mir (Gravity.gravityNed lat h).2 := by
  ext i
  fin_cases i <;> simp [Gravity.gravityNed, mir, L.sin_neg, L.cos_neg, L.sq_neg, L.mul_neg]

theorem dyn_mir (dVN gN : V3 α) (dt : α) (y : Fin 6 → α) : dynG (mir dVN) (mir gN) dt (mir6 y) = mir6 (dynG dVN gN dt y) := by
  ext i
  fin_cases i <;> simp [dynG, mir6, mir, vdiv, L.sin_neg, L.cos_neg, L.sq_neg, L.mul_neg, L.neg_mul, L.neg_neg, L.neg_add, L.neg_div, L.sub_eq]

theorem rk4_mir (dVN gN : V3 α) (dt : α) (y : Fin 6 → α) : rk4G (mir dVN) (mir gN) dt (mir6 y) = mir6 (rk4G dVN gN dt y) := by
  have a : ∀ u v : Fin 6 → α, vadd (mir6 u) (mir6 v) = mir6 (vadd u v) := fun u v => by
    ext i; fin_cases i <;> simp [vadd, mir6, L.neg_add]
  have b : ∀ (s : α) (v : Fin 6 → α), vsmul s (mir6 v) = mir6 (vsmul s v) := fun s v => by
    ext i; fin_cases i <;> simp [vsmul, mir6, L.mul_neg]
  have c : ∀ (s : α) (v : Fin 6 → α), vdiv (mir6 v) s = mir6 (vdiv v s) := fun s v => by
    ext i; fin_cases i <;> simp [vdiv, mir6, L.neg_div]
  simp only [rk4G, dyn_mir L, a, b, c]

theorem nextY_mir (lla vNed dV : V3 α) (R : M3 α) (dTh : V3 α) (d : Int) :
    nextY (mir lla) (mir vNed) (mir dV) (mirM R) (mirRot dTh) d = mir6 (nextY lla vNed dV R dTh d) := by
  have h6 : (![mir lla 0, mir lla 1, mir lla 2, mir vNed 0, mir vNed 1, mir vNed 2] : Fin 6 → α)
      = mir6 ![lla 0, lla 1, lla 2, vNed 0, vNed 1, vNed 2] := by
    ext i; fin_cases i <;> simp [mir, mir6]
  rw [nextY, nextY, h6, attInc_mir L, mmul_mir L, mvec_mir L, ← rk4_mir L]
  congr 1
  exact gravity_mir L _ _

theorem call_mir (s : St α) (c : Call α) : call (mirSt s) (mirCall c) = Out.after (call s c) fun r => (r.1, mirSt r.2) := by
  cases c with
  | init lla vNed rph t =>
    simp only [mirCall, call, init_eval, euler_mir L]
    simp [Out.after, osimp, mirSt]
  | integ dV dTh t =>
    refine integrate_equi s (mirSt s) _ _ _ _ t t mirSt mir mir mirM id rfl rfl rfl (by simp [mirSt]) ?_ ?_
    · intros; rfl
    · intro lla vNed R t0 _ _ hr
      simp only [nextY_mir L, attInc_mir L, mmul_mir L, mirSt, Option.map_some, id]
      simp [mir6, mir]

end mirror

/-- C122: the navigator treats the two hemispheres alike. Mirroring every input of a run in the equator plane mirrors everything it computes
and changes nothing else, whatever members were set before the run, whatever is passed, and also when the run hits undefined behaviour. -/
theorem C122_mirror (L : SignLaws α) (s : St α) (cs : List (Call α)) :
    run (mirSt s) (cs.map mirCall) = Out.after (run s cs) fun r => (r.1, mirSt r.2) :=
  run_equi mirSt mirCall (call_mir L) s cs

theorem negX (a : XR) : -a = XR.neg a := rfl
theorem addX (a b : XR) : a + b = XR.add a b := rfl
theorem mulX (a b : XR) : a * b = XR.mul a b := rfl
theorem divX (a b : XR) : a / b = XR.div a b := rfl
theorem infSign_neg (x : ℝ) : XR.infSign (-x) = XR.neg (XR.infSign x) := by
  rcases lt_trichotomy x 0 with hx | hx | hx
  · rw [XR.infSign, if_pos (by linarith), XR.infSign, if_neg (by linarith), if_pos hx]; rfl
  · subst hx; simp [XR.infSign, XR.neg]
  · rw [XR.infSign, if_neg (by linarith), if_pos (by linarith), XR.infSign, if_pos hx]; rfl
theorem xneg_neg (a : XR) : XR.neg (XR.neg a) = a := by cases a <;> simp [XR.neg]

/-- arithmetic with infinities and NaN has these laws -/
theorem signLaws_XR : SignLaws XR where
  neg_neg a := xneg_neg a
  neg_zero := by simp only [Flt.lit, negX, XR.neg]; simp
  neg_add a b := by
    cases a <;> cases b <;> simp only [negX, addX, XR.neg, XR.add]
    simp [add_comm]
  sub_eq a b := rfl
  neg_mul a b := by
    cases a <;> cases b <;> simp only [negX, mulX, XR.neg, XR.mul, infSign_neg, xneg_neg, neg_mul, mul_neg, XR.neg]
    all_goals (cases XR.infSign _ <;> simp)
  mul_neg a b := by
    cases a <;> cases b <;> simp only [negX, mulX, XR.neg, XR.mul, infSign_neg, xneg_neg, neg_mul, mul_neg, XR.neg]
    all_goals (cases XR.infSign _ <;> simp)
  neg_div a b := by
    cases a <;> cases b <;> simp only [negX, divX, XR.neg, XR.div, infSign_neg, xneg_neg, neg_div, neg_zero]
    all_goals (split_ifs <;> first | rfl | (cases XR.infSign _ <;> simp))
  sin_neg a := by cases a <;> simp [Flt.sin, XR.lift, negX, XR.neg]
  cos_neg a := by cases a <;> simp [Flt.cos, XR.lift, negX, XR.neg]
  sq_neg a := by cases a <;> simp [Flt.powi, negX, XR.neg]

/-- so has rounded arithmetic, if positive and negative numbers are rounded alike, also by the library functions -/
theorem signLaws_Rnd [Machine] {r : ℝ → ℝ} (h : ∀ x, r (-x) = -r x) (hl : Machine.Symmetric) : SignLaws (Rnd r) where
  neg_neg a := by
    show (⟨- -a.val⟩ : Rnd r) = a
    rw [_root_.neg_neg]
  neg_zero := by
    have h0 := h 0
    simp only [neg_zero] at h0
    show (⟨-(r ((0 : ℚ) : ℝ))⟩ : Rnd r) = ⟨r ((0 : ℚ) : ℝ)⟩
    congr 1
    simp only [Rat.cast_zero]
    linarith
  neg_add a b := by
    show (⟨-(r (a.val + b.val))⟩ : Rnd r) = ⟨r (-a.val + -b.val)⟩
    rw [← neg_add, h]
  sub_eq a b := by
    show (⟨r (a.val - b.val)⟩ : Rnd r) = ⟨r (a.val + -b.val)⟩
    rw [sub_eq_add_neg]
  neg_mul a b := by
    show (⟨r (-a.val * b.val)⟩ : Rnd r) = ⟨-r (a.val * b.val)⟩
    rw [← h, neg_mul]
  mul_neg a b := by
    show (⟨r (a.val * -b.val)⟩ : Rnd r) = ⟨-r (a.val * b.val)⟩
    rw [← h, mul_neg]
  neg_div a b := by
    show (⟨r (-a.val / b.val)⟩ : Rnd r) = ⟨-r (a.val / b.val)⟩
    rw [← h, neg_div]
  sin_neg a := by
    show (⟨Machine.lib .sin (-a.val) 0 (Real.sin (-a.val))⟩ : Rnd r) = ⟨-Machine.lib .sin a.val 0 (Real.sin a.val)⟩
    rw [← hl.sin, Real.sin_neg]
  cos_neg a := by
    show (⟨Machine.lib .cos (-a.val) 0 (Real.cos (-a.val))⟩ : Rnd r) = ⟨Machine.lib .cos a.val 0 (Real.cos a.val)⟩
    rw [hl.cos, Real.cos_neg]
  sq_neg a := by
    show (⟨Machine.lib .pow (-a.val) (2 : ℕ) ((-a.val) ^ 2)⟩ : Rnd r) = ⟨Machine.lib .pow a.val (2 : ℕ) (a.val ^ 2)⟩
    rw [Nat.cast_ofNat, hl.sq, neg_sq]

theorem nearest_odd (x : ℝ) : nearest (-x) = -nearest x := by
  rcases lt_trichotomy x 0 with hx | hx | hx
  · rw [nearest, if_pos (by linarith), nearest, if_neg (by linarith), if_pos hx, neg_neg]
  · subst hx; simp [nearest]
  · rw [nearest, if_neg (by linarith), if_pos (by linarith), nearest, if_pos hx, neg_neg]

/-- C122: in particular in double precision (round to nearest) -/
theorem C122_mirror_double [Machine] (hl : Machine.Symmetric) (s : St (Rnd nearest)) (cs : List (Call (Rnd nearest))) :
    run (mirSt s) (cs.map mirCall) = Out.after (run s cs) fun r => (r.1, mirSt r.2) :=
  C122_mirror (signLaws_Rnd nearest_odd hl) s cs

/-- C122: and with infinities and NaN -/
theorem C122_mirror_XR (s : St XR) (cs : List (Call XR)) :
    run (mirSt s) (cs.map mirCall) = Out.after (run s cs) fun r => (r.1, mirSt r.2) :=
  C122_mirror signLaws_XR s cs

/-- a call with nothing that tells north from south: on the equator, no velocity, force or heading to the north, rotation about the first
body axis only -/
def NorthNeutral {r : ℝ → ℝ} : Call (Rnd r) → Prop
  | .init lla vNed rph _ => (lla 0).val = 0 ∧ (vNed 0).val = 0 ∧ (rph 1).val = 0 ∧ (rph 2).val = 0
  | .integ dV dTh _ => (dV 0).val = 0 ∧ (dTh 1).val = 0 ∧ (dTh 2).val = 0

theorem neg_of_val {r : ℝ → ℝ} {x : Rnd r} (h : x.val = 0) : -x = x := by
  obtain ⟨v⟩ := x
  have hv : v = 0 := h
  subst hv
  show (⟨-0⟩ : Rnd r) = ⟨0⟩
  rw [neg_zero]

theorem val_of_neg {r : ℝ → ℝ} {x : Rnd r} (h : -x = x) : x.val = 0 := by
  have h1 : -x.val = x.val := congrArg Rnd.val h
  linarith

/-- C122: a vehicle on the equator that is given nothing that tells north from south stays exactly on the equator and never moves north or
south, however many steps are made and although every operation is rounded. -/
theorem C122_equator [Machine] {r : ℝ → ℝ} (hr : ∀ x, r (-x) = -r x) (hl : Machine.Symmetric) (lla vNed rph : V3 (Rnd r)) (t : Int) (cs : List (Call (Rnd r)))
    (h : ∀ c ∈ Call.init lla vNed rph t :: cs, NorthNeutral c) (bs : List Bool) (s' : St (Rnd r))
    (e : run {} (.init lla vNed rph t :: cs) = .ok (bs, s')) :
    (∀ p, s'.lla = some p → (p 0).val = 0) ∧ (∀ v, s'.vNed = some v → (v 0).val = 0) := by
  have hc : ∀ c : Call (Rnd r), NorthNeutral c → mirCall c = c := by
    intro c hn
    cases c with
    | init l v q t =>
      simp only [mirCall, Call.init.injEq, and_true]
      obtain ⟨h0, h1, h2, h3⟩ := hn
      refine ⟨?_, ?_, ?_⟩ <;> (ext i : 1; fin_cases i <;> simp [mir, mirRot, neg_of_val, h0, h1, h2, h3])
    | integ a b t =>
      simp only [mirCall, Call.integ.injEq, and_true]
      obtain ⟨h0, h1, h2⟩ := hn
      refine ⟨?_, ?_⟩ <;> (ext i : 1; fin_cases i <;> simp [mir, mirRot, neg_of_val, h0, h1, h2])
  have hm := C122_mirror (signLaws_Rnd hr hl) {} (Call.init lla vNed rph t :: cs)
  have hm1 : (Call.init lla vNed rph t :: cs).map mirCall = Call.init lla vNed rph t :: cs := by
    conv_rhs => rw [← List.map_id (Call.init lla vNed rph t :: cs)]
    exact List.map_congr_left fun c hcm => hc c (h c hcm)
  rw [hm1, show mirSt ({} : St (Rnd r)) = {} from rfl, e] at hm
  have hs : s' = mirSt s' := (Prod.mk.inj (Except.ok.inj hm)).2
  constructor
  · intro p hp
    have := congrArg St.lla hs
    simp only [mirSt, hp, Option.map_some, Option.some.injEq] at this
    have h0 := congrFun this 0
    exact val_of_neg (by simpa [mir] using h0.symm)
  · intro v hv
    have := congrArg St.vNed hs
    simp only [mirSt, hv, Option.map_some, Option.some.injEq] at this
    have h0 := congrFun this 0
    exact val_of_neg (by simpa [mir] using h0.symm)

/-- Non-vacuity: such a run exists. It rolls and accelerates to the east and down for two steps. -/
example : letI := Machine.of nearest_rounds; ∃ bs s', run ({} : St (Rnd nearest)) [.init ![⟨0⟩, ⟨1⟩, ⟨100⟩] ![⟨0⟩, ⟨7⟩, ⟨1⟩] ![⟨0.1⟩, ⟨0⟩, ⟨0⟩] 0,
      .integ ![⟨0⟩, ⟨0.02⟩, ⟨-0.09⟩] ![⟨0.01⟩, ⟨0⟩, ⟨0⟩] 10000, .integ ![⟨0⟩, ⟨0.01⟩, ⟨-0.1⟩] ![⟨0.02⟩, ⟨0⟩, ⟨0⟩] 20000] = .ok (bs, s')
    ∧ (∀ p, s'.lla = some p → (p 0).val = 0) := by
  letI := Machine.of nearest_rounds
  have hl : Machine.Symmetric := ⟨fun _ _ => nearest_odd _, fun _ _ => rfl, fun _ _ => rfl⟩
  obtain ⟨s', e⟩ := C52_initialized_always_succeeds ({} : St (Rnd nearest)) ![⟨0⟩, ⟨1⟩, ⟨100⟩] ![⟨0⟩, ⟨7⟩, ⟨1⟩] ![⟨0.1⟩, ⟨0⟩, ⟨0⟩] 0
    [.integ ![⟨0⟩, ⟨0.02⟩, ⟨-0.09⟩] ![⟨0.01⟩, ⟨0⟩, ⟨0⟩] 10000, .integ ![⟨0⟩, ⟨0.01⟩, ⟨-0.1⟩] ![⟨0.02⟩, ⟨0⟩, ⟨0⟩] 20000]
    (timesFit_of_nonneg _ _ (by norm_num) (by simp [Call.tov]))
  exact ⟨_, s', e, (C122_equator nearest_odd hl _ _ _ _ _ (by simp [NorthNeutral]) _ _ e).1⟩

/-! ## C123 -/

/-- a position moved to the east by the longitude `δ` -/
def shiftLla (δ : α) (v : V3 α) : V3 α := ![v 0, v 1 + δ, v 2]

/-- the navigator at a place further east by `δ`, with a clock that is ahead by `τ` microseconds -/
def shiftSt (δ : α) (τ : Int) (s : St α) : St α :=
  { s with lla := s.lla.map (shiftLla δ), tov := s.tov.map (· + τ), llaPrev := s.llaPrev.map (shiftLla δ), tovPrev := s.tovPrev.map (· + τ) }

/-- the same call further east and later -/
def shiftCall (δ : α) (τ : Int) : Call α → Call α
  | .init lla vNed rph t => .init (shiftLla δ lla) vNed rph (t + τ)
  | .integ dV dTh t => .integ dV dTh (t + τ)

/-- the shift for latitude, longitude, altitude and velocity -/
def shift6 (δ : α) (y : Fin 6 → α) : Fin 6 → α := ![y 0, y 1 + δ, y 2, y 3, y 4, y 5]

section shift
variable (δ : α) (hδ : ∀ a k : α, (a + δ) + k = (a + k) + δ)
include hδ

theorem rk4_shift (dVN gN : V3 α) (dt : α) (y : Fin 6 → α) : rk4G dVN gN dt (shift6 δ y) = shift6 δ (rk4G dVN gN dt y) := by
  have d : ∀ y, dynG dVN gN dt (shift6 δ y) = dynG dVN gN dt y := fun y => rfl
  have a : ∀ u v : Fin 6 → α, vadd (shift6 δ u) v = shift6 δ (vadd u v) := fun u v => by
    ext i; fin_cases i <;> simp [vadd, shift6, hδ]
  simp only [rk4G, d, a]

theorem nextY_shift (lla vNed dV : V3 α) (R : M3 α) (dTh : V3 α) (d : Int) :
    nextY (shiftLla δ lla) vNed dV R dTh d = shift6 δ (nextY lla vNed dV R dTh d) := by
  have h6 : (![shiftLla δ lla 0, shiftLla δ lla 1, shiftLla δ lla 2, vNed 0, vNed 1, vNed 2] : Fin 6 → α)
      = shift6 δ ![lla 0, lla 1, lla 2, vNed 0, vNed 1, vNed 2] := by
    ext i; fin_cases i <;> simp [shiftLla, shift6]
  rw [nextY, nextY, h6, ← rk4_shift δ hδ]
  congr 1

theorem call_shift (τ : Int) (s : St α) (c : Call α) :
    call (shiftSt δ τ s) (shiftCall δ τ c) = Out.after (call s c) fun r => (r.1, shiftSt δ τ r.2) := by
  cases c with
  | init lla vNed rph t =>
    simp only [shiftCall, call, init_eval]
    simp [Out.after, osimp, shiftSt]
  | integ dV dTh t =>
    refine integrate_equi s (shiftSt δ τ s) _ _ _ _ t (t + τ) (shiftSt δ τ) (shiftLla δ) id id (· + τ) rfl (by simp [shiftSt])
      (by simp [shiftSt]) rfl ?_ ?_
    · intros; ring
    · intro lla vNed R t0 _ _ hr
      simp only [nextY_shift δ hδ, shiftSt, Option.map_some, id]
      simp [shift6, shiftLla]

end shift

/-- C123: the origins of longitude and of time do not matter. If every longitude passed to the navigator is increased by `δ` and every time
stamp by `τ`, every longitude and time stamp it holds afterwards is increased by the same amount, and nothing else changes. -/
theorem C123_shift (δ : α) (hδ : ∀ a k : α, (a + δ) + k = (a + k) + δ) (τ : Int) (s : St α) (cs : List (Call α)) :
    run (shiftSt δ τ s) (cs.map (shiftCall δ τ)) = Out.after (run s cs) fun r => (r.1, shiftSt δ τ r.2) :=
  run_equi (shiftSt δ τ) (shiftCall δ τ) (call_shift δ hδ τ) s cs

/-- the law asked for holds for every shift in arithmetic with infinities and NaN -/
theorem add_swap_XR (δ a k : XR) : (a + δ) + k = (a + k) + δ := by
  cases a <;> cases δ <;> cases k <;> simp only [addX, XR.add]
  simp only [XR.fin.injEq]; ring

/-- C123: in arithmetic with infinities and NaN (exact on finite numbers) -/
theorem C123_shift_XR (δ : XR) (τ : Int) (s : St XR) (cs : List (Call XR)) :
    run (shiftSt δ τ s) (cs.map (shiftCall δ τ)) = Out.after (run s cs) fun r => (r.1, shiftSt δ τ r.2) :=
  C123_shift δ (add_swap_XR δ) τ s cs

/-- C123: a change of the clock alone is harmless in every arithmetic, also rounded. -/
theorem C123_clock (τ : Int) (s : St α) (cs : List (Call α)) :
    let Φ : St α → St α := fun s => { s with tov := s.tov.map (· + τ), tovPrev := s.tovPrev.map (· + τ) }
    let φ : Call α → Call α := fun c => match c with
      | .init lla vNed rph t => .init lla vNed rph (t + τ)
      | .integ dV dTh t => .integ dV dTh (t + τ)
    run (Φ s) (cs.map φ) = Out.after (run s cs) fun r => (r.1, Φ r.2) := by
  intro Φ φ
  refine run_equi Φ φ (fun s c => ?_) s cs
  cases c with
  | init lla vNed rph t => rfl
  | integ dV dTh t =>
    refine integrate_equi s (Φ s) _ _ _ _ t (t + τ) Φ id id id (· + τ) (by simp [Φ]) (by simp [Φ])
      (by simp [Φ]) rfl ?_ ?_
    · intros; ring
    · intro lla vNed R t0 _ _ hr
      simp [Φ]

/-- Non-vacuity: a flight from Greenwich and the same flight a quarter turn further east, one day later. -/
example : ∃ s', run ({} : St XR) [.init ![.fin 0.8, .fin (0 + Real.pi / 2), .fin 100] ![.fin 3, .fin 7, .fin 1] ![.fin 0, .fin 0, .fin 0] (5 + 86400000000),
      .integ ![.fin 0, .fin 0.02, .fin (-0.09)] ![.fin 0.01, .fin 0, .fin 0] (10005 + 86400000000)] = .ok ([true, true], shiftSt (.fin (Real.pi / 2)) 86400000000 s')
    ∧ run ({} : St XR) [.init ![.fin 0.8, .fin 0, .fin 100] ![.fin 3, .fin 7, .fin 1] ![.fin 0, .fin 0, .fin 0] 5,
      .integ ![.fin 0, .fin 0.02, .fin (-0.09)] ![.fin 0.01, .fin 0, .fin 0] 10005] = .ok ([true, true], s') := by
  obtain ⟨s', e⟩ := C52_initialized_always_succeeds ({} : St XR) ![.fin 0.8, .fin 0, .fin 100] ![.fin 3, .fin 7, .fin 1] ![.fin 0, .fin 0, .fin 0] 5
    [.integ ![.fin 0, .fin 0.02, .fin (-0.09)] ![.fin 0.01, .fin 0, .fin 0] 10005] (timesFit_of_nonneg _ _ (by norm_num) (by simp [Call.tov]))
  refine ⟨s', ?_, e⟩
  have := C123_shift_XR (.fin (Real.pi / 2)) 86400000000 {} [.init ![.fin 0.8, .fin 0, .fin 100] ![.fin 3, .fin 7, .fin 1] ![.fin 0, .fin 0, .fin 0] 5,
    .integ ![.fin 0, .fin 0.02, .fin (-0.09)] ![.fin 0.01, .fin 0, .fin 0] 10005]
  rw [e] at this
  exact this

end NavFuse.Props
