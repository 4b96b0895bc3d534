import Verif.Lemmas.NavSens
import Mathlib.Analysis.Complex.ExponentialBounds

/-! # Property C124: the whole navigator in double precision -/

namespace NavFuse.Props
open Matrix NavFuse.Spec NavFuse.Strapdown NavFuse.NavUtils
variable [Machine] {r : ℝ → ℝ}

/-- the values of the arguments of a sequence of `integrate` calls -/
noncomputable def exactCalls (cs : List (V3 (Rnd r) × V3 (Rnd r) × Int)) : List (Call ℝ) := cs.map fun c => .integ (valV c.1) (valV c.2.1) c.2.2

/-- the same sequence of calls, on doubles with these values -/
def dblCalls (cs : List (V3 (Rnd r) × V3 (Rnd r) × Int)) : List (Call (Dbl r)) := cs.map fun c => .integ (dblV c.1) (dblV c.2.1) c.2.2

/-- steps between 1 and 20 ms, specific force at most 50 m/s², angle increments between 10⁻¹⁶⁰ and 4 rad -/
def Sampled : Int → List (V3 (Rnd r) × V3 (Rnd r) × Int) → Prop
  | _, [] => True
  | t, c :: cs => (1000 ≤ c.2.2 - t ∧ c.2.2 - t ≤ 20000) ∧ len3 (valV c.1) ≤ 50 * (((c.2.2 - t : Int) : ℝ) / 1000000)
      ∧ (1e-160 ≤ len3 (valV c.2.1) ∧ len3 (valV c.2.1) ≤ 4) ∧ Sampled c.2.2 cs

/-- time of the last call -/
def lastTime : Int → List (V3 (Rnd r) × V3 (Rnd r) × Int) → Int
  | t, [] => t
  | _, c :: cs => lastTime c.2.2 cs

/-- latitudes below 71.5 degrees, altitudes up to 19.99 km, velocities up to 299 m/s in each direction -/
structure Cruise (p v : V3 ℝ) : Prop where
  lat : |p 0| ≤ 1.249
  lon : |p 1| ≤ 3.9
  alt : |p 2| ≤ 19990
  vel : ∀ i, |v i| ≤ 299

/-- whatever position and velocity an object holds before the calls or after any number of them, they are within these limits -/
def Cruising (s : St ℝ) (cs : List (Call ℝ)) : Prop :=
  ∀ k bs s' p v, run s (cs.take k) = .ok (bs, s') → s'.lla = some p → s'.vNed = some v → Cruise p v

/-- growth of the difference between the computed and the exact state, in metres, after `n` steps and `T` seconds -/
noncomputable def spread (ε δ : ℝ) (n : ℕ) (T : ℝ) : ℝ :=
  Real.exp (2.7e-3 * T) * (ε + 1.25e-8 * n + 26000 * T * (δ + 770 * n / 2 ^ 52))

omit [Machine] in
theorem Cruise.flight {p v p' v' : V3 ℝ} (h : Cruise p v) {ε : ℝ} (hε : ε ≤ 1) (hy : ∀ i, |st6 p' v' i - st6 p v i| ≤ wt i * ε) : Flight p' v' := by
  have k : ∀ i, |st6 p' v' i| ≤ |st6 p v i| + wt i := fun i => by
    have h1 : |st6 p' v' i| ≤ |st6 p' v' i - st6 p v i| + |st6 p v i| := by simpa using abs_add_le (st6 p' v' i - st6 p v i) (st6 p v i)
    have h2 : 0 ≤ wt i := by fin_cases i <;> norm_num [wt]
    have h3 := hy i
    nlinarith
  refine ⟨(k 0).trans ?_, (k 1).trans ?_, (k 2).trans ?_, fun i => ?_⟩
  · have := h.lat; simp only [st6, wt, cons_val]; norm_num at this ⊢; linarith
  · have := h.lon; simp only [st6, wt, cons_val]; norm_num at this ⊢; linarith
  · have := h.alt; simp only [st6, wt, cons_val]; norm_num at this ⊢; linarith
  · fin_cases i
    · refine (k 3).trans ?_; have := h.vel 0; simp only [st6, wt, cons_val]; norm_num at this ⊢; linarith
    · refine (k 4).trans ?_; have := h.vel 1; simp only [st6, wt, cons_val]; norm_num at this ⊢; linarith
    · refine (k 5).trans ?_; have := h.vel 2; simp only [st6, wt, cons_val]; norm_num at this ⊢; linarith

omit [Machine] in
theorem lastTime_ge (t : Int) (cs : List (V3 (Rnd r) × V3 (Rnd r) × Int)) (h : Sampled t cs) : t ≤ lastTime t cs := by
  induction cs generalizing t with
  | nil => exact le_rfl
  | cons c cs ih =>
    have := ih c.2.2 h.2.2.2
    have := h.1.1
    show t ≤ lastTime c.2.2 cs
    omega

omit [Machine] in
theorem spread_ge {ε δ T : ℝ} {n : ℕ} (hε : 0 ≤ ε) (hδ : 0 ≤ δ) (hT : 0 ≤ T) : ε ≤ spread ε δ n T := by
  have h1 : (1 : ℝ) ≤ Real.exp (2.7e-3 * T) := Real.one_le_exp (by positivity)
  have h2 : 0 ≤ 1.25e-8 * (n : ℝ) + 26000 * T * (δ + 770 * n / 2 ^ 52) := by positivity
  unfold spread
  nlinarith [mul_nonneg (sub_nonneg.2 h1) (add_nonneg hε h2)]

omit [Machine] in
theorem spread_step {ε δ T t : ℝ} {n : ℕ} (hε : 0 ≤ ε) (hδ : 0 ≤ δ) (hT : 0 ≤ T) (ht : 0 ≤ t) :
    spread ((1 + 2.7e-3 * t) * ε + 1.25e-8 + 26000 * t * (δ + 770 / 2 ^ 52)) (δ + 770 / 2 ^ 52) n T ≤ spread ε δ (n + 1) (t + T) := by
  unfold spread
  rw [mul_add (2.7e-3 : ℝ), Real.exp_add, mul_comm (Real.exp (2.7e-3 * t)), mul_assoc (Real.exp (2.7e-3 * T))]
  refine mul_le_mul_of_nonneg_left ?_ (Real.exp_nonneg _)
  have h1 : 1 + 2.7e-3 * t ≤ Real.exp (2.7e-3 * t) := by linarith [Real.add_one_le_exp (2.7e-3 * t)]
  have hn : (0 : ℝ) ≤ n := Nat.cast_nonneg n
  have h2 : (1 : ℝ) ≤ Real.exp (2.7e-3 * t) := Real.one_le_exp (by positivity)
  push_cast
  set E := Real.exp (2.7e-3 * t)
  have a1 : (1 + 2.7e-3 * t) * ε ≤ E * ε := mul_le_mul_of_nonneg_right h1 hε
  have hX : 0 ≤ 1.25e-8 * ((n : ℝ) + 1) + 26000 * (t + T) * (δ + 770 * (n + 1) / 2 ^ 52) := by positivity
  have a2 : 1.25e-8 * ((n : ℝ) + 1) + 26000 * (t + T) * (δ + 770 * (n + 1) / 2 ^ 52)
      ≤ E * (1.25e-8 * ((n : ℝ) + 1) + 26000 * (t + T) * (δ + 770 * (n + 1) / 2 ^ 52)) := le_mul_of_one_le_left hX h2
  have a3 : 0 ≤ 26000 * t * (770 * (n : ℝ) / 2 ^ 52) := by positivity
  calc _ = (1 + 2.7e-3 * t) * ε + (1.25e-8 * ((n : ℝ) + 1) + 26000 * (t + T) * (δ + 770 * (n + 1) / 2 ^ 52)) - 26000 * t * (770 * (n : ℝ) / 2 ^ 52) := by ring
    _ ≤ E * ε + E * (1.25e-8 * ((n : ℝ) + 1) + 26000 * (t + T) * (δ + 770 * (n + 1) / 2 ^ 52)) := by linarith
    _ = _ := by ring

/-- one step: rounding, attitude and propagated differences -/
theorem step_total (h : Rounds53 r) {lla vNed dV : V3 (Rnd r)} {A : M3 (Rnd r)} {p v : V3 ℝ} {E : M3 ℝ} {d : Int} {ε δ : ℝ}
    (hd : 1000 ≤ d ∧ d ≤ 20000) (hV : len3 (valV dV) ≤ 50 * ((d : ℝ) / 1000000)) (hE : IsRot E) (hδ : δ ≤ 1 / 10) (hA : RowsNear A E δ)
    (hε : 0 ≤ ε) (hε1 : ε ≤ 1) (hC : Cruise p v) (hy : ∀ i, |st6 (valV lla) (valV vNed) i - st6 p v i| ≤ wt i * ε) (i : Fin 6) :
    |(stepY lla vNed dV A d i).val - stepY p v (valV dV) E d i|
      ≤ wt i * ((1 + 2.7e-3 * ((d : ℝ) / 1000000)) * ε + 1.25e-8 + 26000 * ((d : ℝ) / 1000000) * δ) := by
  have hF := hC.flight hε1 hy
  have hF' : Flight p v := hC.flight (ε := 0) (by norm_num) (by simp)
  have hE1 : ∀ i, len3 (E i) ≤ 11 / 10 := fun i => by rw [hE.row_len3]; norm_num
  have hδ0 : 0 ≤ δ := (len3_nonneg' _).trans (hA 0)
  have hA1 : ∀ i, len3 (valM A i) ≤ 11 / 10 := fun i => by
    have := len3_add (valM A i - E i) (E i)
    rw [sub_add_cancel, hE.row_len3] at this
    linarith [hA i]
  have s1 := step_round h lla vNed dV A d hd hA1 hV hF i
  have s2 := step_force (η := δ) hδ0 (by linarith) hd hA1 hE1 hV hF hA i
  have s3 := step_lip hε hε1 hd hE1 hV hF hF' hy i
  have s4 : (![2e-15, 5e-15, 3e-11, 6e-13, 6e-13, 6e-13] : Fin 6 → ℝ) i ≤ wt i * 1.25e-8 := by fin_cases i <;> norm_num [wt]
  have t1 := abs_sub_le (stepY lla vNed dV A d i).val (stepY (valV lla) (valV vNed) (valV dV) (valM A) d i) (stepY p v (valV dV) E d i)
  have t2 := abs_sub_le (stepY (valV lla) (valV vNed) (valV dV) (valM A) d i) (stepY (valV lla) (valV vNed) (valV dV) E d i) (stepY p v (valV dV) E d i)
  linarith

theorem run_total (h : Rounds53 r) (cs : List (V3 (Rnd r) × V3 (Rnd r) × Int)) (s : St (Rnd r)) (lla vNed : V3 (Rnd r)) (A : M3 (Rnd r)) (t : Int)
    (sx : St ℝ) (p v : V3 ℝ) (E : M3 ℝ) (hs : Ready s lla vNed A t) (hx : Ready sx p v E t) (hE : IsRot E) (hc : Sampled t cs)
    (hC : Cruising sx (exactCalls cs)) (ε δ : ℝ) (hε : 0 ≤ ε) (hδ0 : 0 ≤ δ) (hδ : δ + 770 * cs.length * ulp ≤ 1 / 10) (hA : RowsNear A E δ)
    (hy : ∀ i, |st6 (valV lla) (valV vNed) i - st6 p v i| ≤ wt i * ε)
    (hB : spread ε δ cs.length (((lastTime t cs - t : Int) : ℝ) / 1000000) ≤ 1) :
    ∃ s' sx' lla' vNed' A' p' v' E', run s (integCalls cs) = .ok (List.replicate cs.length true, s')
      ∧ run sx (exactCalls cs) = .ok (List.replicate cs.length true, sx')
      ∧ Ready s' lla' vNed' A' (lastTime t cs) ∧ Ready sx' p' v' E' (lastTime t cs)
      ∧ (∀ i, |st6 (valV lla') (valV vNed') i - st6 p' v' i| ≤ wt i * spread ε δ cs.length (((lastTime t cs - t : Int) : ℝ) / 1000000))
      ∧ ∀ S, Ready S (dblV lla) (dblV vNed) (dblM A) t → ∃ S', run S (dblCalls cs) = .ok (List.replicate cs.length true, S')
        ∧ Ready S' (dblV lla') (dblV vNed') (dblM A') (lastTime t cs) := by
  induction cs generalizing s lla vNed A t sx p v E ε δ with
  | nil =>
    refine ⟨s, sx, lla, vNed, A, p, v, E, rfl, rfl, hs, hx, fun i => ?_, fun S hS => ⟨S, rfl, hS⟩⟩
    have : spread ε δ 0 (((lastTime (r := r) t [] - t : Int) : ℝ) / 1000000) = ε := by simp [spread, lastTime]
    rw [List.length_nil, this]; exact hy i
  | cons c cs ih =>
    obtain ⟨dV, dTh, t'⟩ := c
    obtain ⟨hd, hV, ⟨h0, h4⟩, hc'⟩ := hc
    simp only at hd hV h0 h4 hc'
    have hu := ulp_pos
    have hu3 : ulp = 1 / 2 ^ 52 := by unfold ulp; norm_num
    have hlen : δ + 770 * ((cs.length : ℝ) + 1) * ulp ≤ 1 / 10 := by simpa using hδ
    have hn : (0 : ℝ) ≤ cs.length * ulp := by positivity
    have hlast := lastTime_ge t' cs hc'
    have hT : (0 : ℝ) ≤ ((lastTime t' cs - t' : Int) : ℝ) / 1000000 := by
      have : (0 : ℝ) ≤ ((lastTime t' cs - t' : Int) : ℝ) := by exact_mod_cast (by omega)
      positivity
    have ht : (0 : ℝ) ≤ ((t' - t : Int) : ℝ) / 1000000 := by
      have : (0 : ℝ) ≤ ((t' - t : Int) : ℝ) := by exact_mod_cast (by omega)
      positivity
    have hTT : ((lastTime t ((dV, dTh, t') :: cs) - t : Int) : ℝ) / 1000000
        = ((t' - t : Int) : ℝ) / 1000000 + ((lastTime t' cs - t' : Int) : ℝ) / 1000000 := by
      show ((lastTime t' cs - t : Int) : ℝ) / 1000000 = _
      push_cast; ring
    have hst := step_rnd h A E hE δ (by nlinarith) hA dTh h0 h4
    have hE' := hE.mul (attInc_isRot _ (ne_zero_of_len3 h0))
    have em : mmul E (attInc (valV dTh)) = E * attInc (valV dTh) := by simp only [rsimp]
    have fit : -2 ^ 63 ≤ t' - t ∧ t' - t < 2 ^ 63 := by omega
    have hev := integrate_eval s lla vNed dV dTh A t t' hs fit
    have hex := integrate_eval sx p v (valV dV) (valV dTh) E t t' hx fit
    have hC0 : Cruise p v := hC 0 [] sx p v rfl hx.1 hx.2.1
    rw [hTT, List.length_cons] at hB ⊢
    have hε1 : ε ≤ 1 := (spread_ge hε hδ0 (by positivity)).trans hB
    have hq := spread_step (n := cs.length) hε hδ0 hT ht
    have key := fun i => step_total h (lla := lla) (vNed := vNed) (dV := dV) (A := mmul A (attInc dTh)) (E := E * attInc (valV dTh)) (δ := δ + 770 * ulp)
      hd hV hE' (by linarith) hst hε hε1 hC0 hy i
    have hu4 : 770 * ulp = 770 / 2 ^ 52 := by rw [hu3]; ring
    rw [hu4] at key hst
    have hA1 : ∀ i, len3 (valM A i) ≤ 11 / 10 := fun i => by
      have := len3_add (valM A i - E i) (E i)
      rw [sub_add_cancel, hE.row_len3] at this
      linarith [hA i]
    have hA2 : ∀ i, len3 (valM (mmul A (attInc dTh)) i) ≤ 11 / 10 := fun i => by
      have := len3_add (valM (mmul A (attInc dTh)) i - (E * attInc (valV dTh)) i) ((E * attInc (valV dTh)) i)
      rw [sub_add_cancel, hE'.row_len3] at this
      linarith [hst i]
    have hm := mmul_attInc_dbl h A hA1 dTh (vsqNorm_len h _ h0) h4
    have hnx : ∀ i, nextY (dblV lla) (dblV vNed) (dblV dV) (dblM A) (dblV dTh) (t' - t) i = .fin (nextY lla vNed dV A dTh (t' - t) i).val := fun i => by
      have := (step_joint h lla vNed dV (mmul A (attInc dTh)) (t' - t) hd hA2 hV (hC0.flight hε1 hy) i).1
      rw [← hm] at this
      exact this
    set Y := nextY lla vNed dV A dTh (t' - t) with hY
    set Z := nextY p v (valV dV) E (valV dTh) (t' - t) with hZ
    have key2 : ∀ i, |(Y i).val - Z i| ≤ wt i * ((1 + 2.7e-3 * (((t' - t : Int) : ℝ) / 1000000)) * ε + 1.25e-8
        + 26000 * (((t' - t : Int) : ℝ) / 1000000) * (δ + 770 / 2 ^ 52)) := fun i => by
      have := key i
      rw [← em] at this
      exact this
    clear_value Y Z
    generalize hS : (⟨_, _, _, _, _, _, _, _, _⟩ : St (Rnd r)) = S at hev
    generalize hSx : (⟨_, _, _, _, _, _, _, _, _⟩ : St ℝ) = Sx at hex
    have hR : Ready S ![Y 0, Y 1, Y 2] ![Y 3, Y 4, Y 5] (mmul A (attInc dTh)) t' := by rw [← hS]; exact ⟨rfl, rfl, rfl, rfl⟩
    have hRx : Ready Sx ![Z 0, Z 1, Z 2] ![Z 3, Z 4, Z 5] (E * attInc (valV dTh)) t' := by rw [← hSx, ← em]; exact ⟨rfl, rfl, rfl, rfl⟩
    obtain ⟨s', sx', lla', vNed', A', p', v', E', e1, e2, e3, e4, e5, e6⟩ := ih S _ _ _ t' Sx _ _ _ hR hRx hE' hc'
      (fun k bs s' p v hr hp hv => hC (k + 1) (true :: bs) s' p v (by
        rw [exactCalls, List.map_cons, List.take_succ_cons, run, call, hex]
        simp only [osimp]
        rw [show List.map _ cs = exactCalls cs from rfl, hr]; rfl) hp hv)
      _ _ (by positivity) (by positivity) (by rw [← hu4]; linarith) hst (fun i => by
        have := key2 i
        fin_cases i <;> exact this) (hq.trans hB)
    refine ⟨s', sx', lla', vNed', A', p', v', E', ?_, ?_, e3, e4, fun i => (e5 i).trans (mul_le_mul_of_nonneg_left hq (by fin_cases i <;> norm_num [wt])), fun D hD => ?_⟩
    · simp only [integCalls, List.map_cons, run, call]
      rw [hev]
      simp only [osimp]
      rw [show List.map _ cs = integCalls cs from rfl, e1]
      rfl
    · simp only [exactCalls, List.map_cons, run, call]
      rw [hex]
      simp only [osimp]
      rw [show List.map _ cs = exactCalls cs from rfl, e2]
      rfl
    · have hed := integrate_eval D (dblV lla) (dblV vNed) (dblV dV) (dblV dTh) (dblM A) t t' hD fit
      generalize hDx : (⟨_, _, _, _, _, _, _, _, _⟩ : St (Dbl r)) = Dx at hed
      have hRd : Ready Dx (dblV ![Y 0, Y 1, Y 2]) (dblV ![Y 3, Y 4, Y 5]) (dblM (mmul A (attInc dTh))) t' := by
        rw [← hDx, ← hm]
        refine ⟨?_, ?_, rfl, rfl⟩
        · simp only [hnx]; congr 1; funext i; fin_cases i <;> rfl
        · simp only [hnx]; congr 1; funext i; fin_cases i <;> rfl
      obtain ⟨S', f1, f2⟩ := e6 Dx hRd
      refine ⟨S', ?_, f2⟩
      simp only [dblCalls, List.map_cons, run, call]
      rw [hed]
      simp only [osimp]
      rw [show List.map _ cs = dblCalls cs from rfl, f1]
      rfl

/-- the three runs: doubles with overflow, rounded reals, exact -/
theorem navigator_joint (h : Rounds53 r) (s : St (Rnd r)) (sx : St ℝ) (lla vNed rph : V3 (Rnd r)) (t : Int) (cs : List (V3 (Rnd r) × V3 (Rnd r) × Int))
    (hc : Sampled t cs) (hC : Cruising (Strapdown.init sx (valV lla) (valV vNed) (valV rph) t).2 (exactCalls cs)) (B : ℝ)
    (hB : B = Real.exp (0.0027 * (((lastTime t cs - t : Int) : ℝ) / 1000000))
      * (1.25e-8 * cs.length + 26000 * (((lastTime t cs - t : Int) : ℝ) / 1000000) * (122 + 770 * cs.length) / 2 ^ 52)) (hB1 : B ≤ 1)
    (hn : cs.length ≤ 5 * 10 ^ 11) :
    ∃ s' sx' p v px vx, run s (.init lla vNed rph t :: integCalls cs) = .ok (true :: List.replicate cs.length true, s')
      ∧ run sx (.init (valV lla) (valV vNed) (valV rph) t :: exactCalls cs) = .ok (true :: List.replicate cs.length true, sx')
      ∧ s'.lla = some p ∧ s'.vNed = some v ∧ sx'.lla = some px ∧ sx'.vNed = some vx
      ∧ |(p 0).val - px 0| ≤ 1.6e-7 * B ∧ |(p 1).val - px 1| ≤ 5e-7 * B ∧ |(p 2).val - px 2| ≤ B ∧ (∀ i, |(v i).val - vx i| ≤ 0.002 * B)
      ∧ ∀ S, ∃ S', run S (.init (dblV lla) (dblV vNed) (dblV rph) t :: dblCalls cs) = .ok (true :: List.replicate cs.length true, S')
        ∧ S'.lla = some (dblV p) ∧ S'.vNed = some (dblV v) := by
  have hu := ulp_pos
  have hu3 : ulp = 1 / 2 ^ 52 := by unfold ulp; norm_num
  have hd : 122 * ulp + 770 * cs.length * ulp ≤ 1 / 10 := by
    have : (cs.length : ℝ) ≤ 5 * 10 ^ 11 := by exact_mod_cast hn
    unfold ulp
    nlinarith
  have eE : (Attitude.euler2Dcm (valV rph)).2 = (bodyToNed (rph 0).val (rph 1).val (rph 2).val)ᵀ := by rw [euler_R]; rfl
  have hBs : spread 0 (122 * ulp) cs.length (((lastTime t cs - t : Int) : ℝ) / 1000000) = B := by
    rw [hB, spread, hu3]; norm_num; ring_nf
  have hready := init_ready sx (valV lla) (valV vNed) (valV rph) t
  rw [eE] at hready
  obtain ⟨s', sx', p, v, A, px, vx, E, e1, e2, e3, e4, e5, e6⟩ := run_total h cs _ _ _ _ t _ _ _ _ (init_ready s lla vNed rph t)
    hready (bodyToNed_isRot _ _ _).transpose hc
    hC 0 (122 * ulp) le_rfl (by positivity) hd (euler_rnd h rph) (by simp) (by rw [hBs]; exact hB1)
  rw [hBs] at e5
  refine ⟨s', sx', p, v, px, vx, ?_, ?_, e3.1, e3.2.1, e4.1, e4.2.1, e5 0, e5 1, (e5 2).trans (le_of_eq (one_mul B)), fun i => ?_, fun S => ?_⟩
  · simp only [run, call, osimp, e1]; rfl
  · simp only [run, call, osimp, e2]; rfl
  · have h3 := e5 3
    have h4 := e5 4
    have h5 := e5 5
    simp only [st6, wt, cons_val] at h3 h4 h5
    norm_num at h3 h4 h5 ⊢
    fin_cases i
    exacts [h3, h4, h5]
  · have hr := init_ready S (dblV lla) (dblV vNed) (dblV rph) t
    rw [euler_dbl h] at hr
    obtain ⟨S', f1, f2⟩ := e6 _ hr
    refine ⟨S', ?_, f2.1, f2.2.1⟩
    simp only [run, call, osimp, f1]
    rfl

/-- C124. The navigator in double precision, in every rounding mode. Perform `initialize` and `n` calls of `integrate` (steps of 1 to 20 ms,
specific forces up to 50 m/s², angle increments between 10⁻¹⁶⁰ and 4 rad), once in double precision and once in exact arithmetic on the same
numbers, and let the exact positions and velocities stay below 71.5° of latitude, 19.99 km and 299 m/s. With
B = exp(0.0027 T) (1.25·10⁻⁸ n + 26000 T (122 + 770 n) 2⁻⁵²), T the time in seconds: as long as B ≤ 1, every call of both runs succeeds and
the results differ by at most B metres in altitude, 1.6·10⁻⁷ B rad in latitude, 5·10⁻⁷ B rad in longitude and 0.002 B m/s in each velocity. -/
theorem C124_navigator_double (h : Rounds53 r) (s : St (Rnd r)) (sx : St ℝ) (lla vNed rph : V3 (Rnd r)) (t : Int) (cs : List (V3 (Rnd r) × V3 (Rnd r) × Int))
    (hc : Sampled t cs) (hC : Cruising (Strapdown.init sx (valV lla) (valV vNed) (valV rph) t).2 (exactCalls cs)) (B : ℝ)
    (hB : B = Real.exp (0.0027 * (((lastTime t cs - t : Int) : ℝ) / 1000000))
      * (1.25e-8 * cs.length + 26000 * (((lastTime t cs - t : Int) : ℝ) / 1000000) * (122 + 770 * cs.length) / 2 ^ 52)) (hB1 : B ≤ 1)
    (hn : cs.length ≤ 5 * 10 ^ 11) :
    ∃ s' sx' p v px vx, run s (.init lla vNed rph t :: integCalls cs) = .ok (true :: List.replicate cs.length true, s')
      ∧ run sx (.init (valV lla) (valV vNed) (valV rph) t :: exactCalls cs) = .ok (true :: List.replicate cs.length true, sx')
      ∧ s'.lla = some p ∧ s'.vNed = some v ∧ sx'.lla = some px ∧ sx'.vNed = some vx
      ∧ |(p 0).val - px 0| ≤ 1.6e-7 * B ∧ |(p 1).val - px 1| ≤ 5e-7 * B ∧ |(p 2).val - px 2| ≤ B ∧ ∀ i, |(v i).val - vx i| ≤ 0.002 * B := by
  obtain ⟨s', sx', p, v, px, vx, e1, e2, e3, e4, e5, e6, e7, e8, e9, e10, -⟩ := navigator_joint h s sx lla vNed rph t cs hc hC B hB hB1 hn
  exact ⟨s', sx', p, v, px, vx, e1, e2, e3, e4, e5, e6, e7, e8, e9, e10⟩

/-- C124, in round numbers: over 100 seconds and 10000 steps the computed position is within 1 cm of the exact one and the velocity within
0.02 mm/s. -/
theorem C124_hundred_seconds (h : Rounds53 r) (s : St (Rnd r)) (sx : St ℝ) (lla vNed rph : V3 (Rnd r)) (t : Int) (cs : List (V3 (Rnd r) × V3 (Rnd r) × Int))
    (hc : Sampled t cs) (hC : Cruising (Strapdown.init sx (valV lla) (valV vNed) (valV rph) t).2 (exactCalls cs)) (hn : cs.length ≤ 10000)
    (hT : lastTime t cs - t ≤ 100000000) :
    ∃ s' sx' p v px vx, run s (.init lla vNed rph t :: integCalls cs) = .ok (true :: List.replicate cs.length true, s')
      ∧ run sx (.init (valV lla) (valV vNed) (valV rph) t :: exactCalls cs) = .ok (true :: List.replicate cs.length true, sx')
      ∧ s'.lla = some p ∧ s'.vNed = some v ∧ sx'.lla = some px ∧ sx'.vNed = some vx
      ∧ |(p 0).val - px 0| ≤ 1.6e-9 ∧ |(p 1).val - px 1| ≤ 5e-9 ∧ |(p 2).val - px 2| ≤ 0.01 ∧ ∀ i, |(v i).val - vx i| ≤ 0.00002 := by
  have hT0 : (0 : ℝ) ≤ ((lastTime t cs - t : Int) : ℝ) / 1000000 := by
    have h0 := lastTime_ge t cs hc
    have : (0 : ℝ) ≤ ((lastTime t cs - t : Int) : ℝ) := by exact_mod_cast (by omega)
    positivity
  have hT1 : ((lastTime t cs - t : Int) : ℝ) / 1000000 ≤ 100 := by
    have : ((lastTime t cs - t : Int) : ℝ) ≤ 100000000 := by exact_mod_cast hT
    rw [div_le_iff₀ (by norm_num)]; linarith
  have hn1 : (cs.length : ℝ) ≤ 10000 := by exact_mod_cast hn
  have hn0 : (0 : ℝ) ≤ cs.length := Nat.cast_nonneg _
  obtain ⟨B, hB⟩ : ∃ B, B = Real.exp (0.0027 * (((lastTime t cs - t : Int) : ℝ) / 1000000))
      * (1.25e-8 * cs.length + 26000 * (((lastTime t cs - t : Int) : ℝ) / 1000000) * (122 + 770 * cs.length) / 2 ^ 52) := ⟨_, rfl⟩
  have hB1 : B ≤ 0.01 := by
    rw [hB]
    have h1 : Real.exp (0.0027 * (((lastTime t cs - t : Int) : ℝ) / 1000000)) ≤ 2 := by
      have h2 : Real.exp (0.0027 * (((lastTime t cs - t : Int) : ℝ) / 1000000)) ≤ Real.exp (1 / 2) := Real.exp_le_exp.2 (by norm_num at hT1 ⊢; linarith)
      have h3 : Real.exp (1 / 2) ^ 2 = Real.exp 1 := by rw [← Real.exp_nat_mul]; norm_num
      have h4 := Real.exp_one_lt_d9
      nlinarith [Real.exp_pos (1 / 2)]
    have h5 : 1.25e-8 * (cs.length : ℝ) + 26000 * (((lastTime t cs - t : Int) : ℝ) / 1000000) * (122 + 770 * cs.length) / 2 ^ 52 ≤ 0.005 := by
      have h6 : (((lastTime t cs - t : Int) : ℝ) / 1000000) * (122 + 770 * cs.length) ≤ 100 * (122 + 770 * 10000) :=
        mul_le_mul hT1 (by linarith) (by positivity) (by norm_num)
      norm_num at h6 ⊢
      linarith
    calc _ ≤ (2 : ℝ) * 0.005 := mul_le_mul h1 h5 (by positivity) (by norm_num)
      _ = 0.01 := by norm_num
  obtain ⟨s', sx', p, v, px, vx, e1, e2, e3, e4, e5, e6, e7, e8, e9, e10⟩ := C124_navigator_double h s sx lla vNed rph t cs hc hC B hB
    (hB1.trans (by norm_num)) (hn.trans (by norm_num))
  refine ⟨s', sx', p, v, px, vx, e1, e2, e3, e4, e5, e6, e7.trans ?_, e8.trans ?_, e9.trans hB1, fun i => (e10 i).trans ?_⟩ <;>
    norm_num at hB1 ⊢ <;> linarith

omit [Machine] in
/-- how far one exact step moves -/
theorem step_move {p v dV : V3 ℝ} {A : M3 ℝ} {d : Int} (hd : 1000 ≤ d ∧ d ≤ 20000)
    (hA : ∀ i, len3 (A i) ≤ 11 / 10) (hV : len3 dV ≤ 50 * ((d : ℝ) / 1000000)) (hF : Flight p v) (i : Fin 6) :
    |stepY p v dV A d i - st6 p v i| ≤ (d : ℝ) / 1000000 * (![1e-3, 1e-3, 305, 70, 70, 70] : Fin 6 → ℝ) i := by
  have hd1 : (1000 : ℝ) ≤ d := by exact_mod_cast hd.1
  have hd2 : (d : ℝ) ≤ 20000 := by exact_mod_cast hd.2
  have hdt : 0 ≤ (d : ℝ) / 1000000 ∧ (d : ℝ) / 1000000 ≤ 0.02 := ⟨by positivity, by rw [div_le_iff₀ (by norm_num)]; norm_num; linarith⟩
  obtain ⟨g0, g1, g2⟩ := gravity_lip (ε := 0) le_rfl (φ := p 0) (φ' := p 0) (z := p 2) (z' := p 2) ⟨by simp, hF.lat, hF.lat⟩ ⟨by simp, hF.alt, hF.alt⟩
  have a := fun i => Lp.const (ε := 0) le_rfl _ (force_le hd.1 hA hV i)
  have hm : ∀ z : Fin 6 → ℝ, (∀ i, |z i| ≤ (![1.251, 5, 20010, 305, 305, 305] : Fin 6 → ℝ) i) → ∀ i,
      |dynG (mvec A dV) (Gravity.gravityNed (p 0) (p 2)).2 ((d : ℝ) / 1000000) z i| ≤ (![1e-3, 1e-3, 305, 70, 70, 70] : Fin 6 → ℝ) i := by
    intro z hz i
    have c : ∀ (k : Fin 6) (c : ℝ), Lp 0 (z k) (z k) c _ := fun k c => ⟨by simp, hz k, hz k⟩
    obtain ⟨q0, q1, q2, q3, q4, q5⟩ := dyn_lip (ε := 0) le_rfl (by norm_num) (c 0 _) (c 2 _) (c 3 _) (c 4 _) (c 5 _) (a 0) (a 1) (a 2) g0 g1 g2
    fin_cases i
    · exact q0.m1.trans (by norm_num)
    · exact q1.m1.trans (by norm_num)
    · exact q2.m1.trans (by norm_num)
    · exact q3.m1.trans (by norm_num)
    · exact q4.m1.trans (by norm_num)
    · exact q5.m1.trans (by norm_num)
  have key := rk4_sens (ε := 1) zero_le_one hdt (f := dynG (mvec A dV) (Gravity.gravityNed (p 0) (p 2)).2 ((d : ℝ) / 1000000)) (f' := fun _ => 0)
    (w := 0) (W := ![1, 1, 7, 2, 2, 2]) (c := ![1e-3, 1e-3, 305, 70, 70, 70]) (M := ![1e-3, 1e-3, 305, 70, 70, 70])
    (R0 := ![1.25, 4, 20000, 300, 300, 300]) (R := ![1.251, 5, 20010, 305, 305, 305]) (e := fun _ => 0)
    (fun z z' hz i => by
      have h0 : (0 : ℝ) ≤ (![1e-3, 1e-3, 305, 70, 70, 70] : Fin 6 → ℝ) i := by fin_cases i <;> norm_num
      have := hm z (fun i => (hz i).m1) i
      exact ⟨by simpa using this, this, by simpa using h0⟩)
    (fun i => by fin_cases i <;> norm_num) (fun i => by fin_cases i <;> norm_num) (fun i => by fin_cases i <;> norm_num)
    (fun i => by fin_cases i <;> norm_num) (fun i => by simp) (y := st6 p v) (y' := st6 p v) (fun i => by simp) hF.st6_le hF.st6_le i
  have e0 : rk4 (fun _ => (0 : Fin 6 → ℝ)) ((d : ℝ) / 1000000) (st6 p v) = st6 p v := by simp [rk4]
  rw [stepY, rk4G_rk4, dt_R]
  rw [e0, zero_add, mul_one] at key
  exact key

/-- room for `T` seconds of the fastest possible motion -/
def Room (p v : V3 ℝ) (T : ℝ) : Prop :=
  ∀ i, |st6 p v i| + T * (![1e-3, 1e-3, 305, 70, 70, 70] : Fin 6 → ℝ) i ≤ (![1.249, 3.9, 19990, 299, 299, 299] : Fin 6 → ℝ) i

omit [Machine] in
theorem Room.cruise {p v : V3 ℝ} {T : ℝ} (h : Room p v T) (hT : 0 ≤ T) : Cruise p v := by
  have k : ∀ i, |st6 p v i| ≤ (![1.249, 3.9, 19990, 299, 299, 299] : Fin 6 → ℝ) i := fun i => by
    refine le_trans (le_add_of_nonneg_right (mul_nonneg hT ?_)) (h i)
    fin_cases i <;> norm_num
  refine ⟨k 0, k 1, k 2, fun i => ?_⟩
  fin_cases i
  exacts [k 3, k 4, k 5]

omit [Machine] in
theorem cruising_of_room (cs : List (V3 (Rnd r) × V3 (Rnd r) × Int)) (t : Int) (sx : St ℝ) (p v : V3 ℝ) (E : M3 ℝ) (hx : Ready sx p v E t) (hE : IsRot E)
    (hc : Sampled t cs) (hR : Room p v (((lastTime t cs - t : Int) : ℝ) / 1000000)) : Cruising sx (exactCalls cs) := by
  induction cs generalizing t sx p v E with
  | nil =>
    intro k bs s' p' v' hr hp hv
    have e : s' = sx := by
      simp only [exactCalls, List.map_nil, List.take_nil, run] at hr
      injection hr with hr
      exact (Prod.ext_iff.1 hr).2.symm
    subst e
    obtain rfl := Option.some.inj (hx.1.symm.trans hp)
    obtain rfl := Option.some.inj (hx.2.1.symm.trans hv)
    exact hR.cruise (by simp [lastTime])
  | cons c cs ih =>
    obtain ⟨dV, dTh, t'⟩ := c
    obtain ⟨hd, hV, ⟨h0, h4⟩, hc'⟩ := hc
    simp only at hd hV h0 h4 hc'
    have hlast := lastTime_ge t' cs hc'
    have hT : (0 : ℝ) ≤ ((lastTime t' cs - t' : Int) : ℝ) / 1000000 := by
      have : (0 : ℝ) ≤ ((lastTime t' cs - t' : Int) : ℝ) := by exact_mod_cast (by omega)
      positivity
    have ht : (0 : ℝ) ≤ ((t' - t : Int) : ℝ) / 1000000 := by
      have : (0 : ℝ) ≤ ((t' - t : Int) : ℝ) := by exact_mod_cast (by omega)
      positivity
    have hTT : ((lastTime t ((dV, dTh, t') :: cs) - t : Int) : ℝ) / 1000000
        = ((t' - t : Int) : ℝ) / 1000000 + ((lastTime t' cs - t' : Int) : ℝ) / 1000000 := by
      show ((lastTime t' cs - t : Int) : ℝ) / 1000000 = _
      push_cast; ring
    rw [hTT] at hR
    have hC0 := hR.cruise (by positivity)
    have hE' := hE.mul (attInc_isRot _ (ne_zero_of_len3 h0))
    have em : mmul E (attInc (valV dTh)) = E * attInc (valV dTh) := by simp only [rsimp]
    have hex := integrate_eval sx p v (valV dV) (valV dTh) E t t' hx (by omega)
    have key : ∀ i, |nextY p v (valV dV) E (valV dTh) (t' - t) i - st6 p v i| ≤ ((t' - t : Int) : ℝ) / 1000000 * (![1e-3, 1e-3, 305, 70, 70, 70] : Fin 6 → ℝ) i := fun i => by
      have := step_move (p := p) (v := v) (dV := valV dV) (A := E * attInc (valV dTh)) hd (fun i => by rw [hE'.row_len3]; norm_num) hV
        (hC0.flight (ε := 0) (by norm_num) (by simp)) i
      rw [← em] at this
      exact this
    set Z := nextY p v (valV dV) E (valV dTh) (t' - t) with hZ
    clear_value Z
    generalize hSx : (⟨_, _, _, _, _, _, _, _, _⟩ : St ℝ) = Sx at hex
    have hRx : Ready Sx ![Z 0, Z 1, Z 2] ![Z 3, Z 4, Z 5] (E * attInc (valV dTh)) t' := by rw [← hSx, ← em]; exact ⟨rfl, rfl, rfl, rfl⟩
    have hroom : Room ![Z 0, Z 1, Z 2] ![Z 3, Z 4, Z 5] (((lastTime t' cs - t' : Int) : ℝ) / 1000000) := fun i => by
      have k1 := hR i
      have k2 := key i
      have k3 : |Z i| ≤ |Z i - st6 p v i| + |st6 p v i| := by simpa using abs_add_le (Z i - st6 p v i) (st6 p v i)
      have k4 : st6 ![Z 0, Z 1, Z 2] ![Z 3, Z 4, Z 5] i = Z i := by fin_cases i <;> rfl
      rw [k4]
      rw [add_mul] at k1
      linarith
    have := ih t' Sx _ _ _ hRx hE' hc' hroom
    intro k bs s' p' v' hr hp hv
    cases k with
    | zero =>
      have e : s' = sx := by
        simp only [List.take_zero, run] at hr
        injection hr with hr
        exact (Prod.ext_iff.1 hr).2.symm
      subst e
      obtain rfl := Option.some.inj (hx.1.symm.trans hp)
      obtain rfl := Option.some.inj (hx.2.1.symm.trans hv)
      exact hC0
    | succ k =>
      rw [exactCalls, List.map_cons, List.take_succ_cons, run, call, hex] at hr
      simp only [osimp] at hr
      rw [show List.map _ cs = exactCalls cs from rfl] at hr
      cases hq : run Sx (List.take k (exactCalls cs)) with
      | error e => rw [hq] at hr; simp [osimp] at hr
      | ok q =>
        rw [hq] at hr
        simp only [osimp] at hr
        injection hr with hr
        exact this k q.1 s' p' v' (by rw [hq, show s' = q.2 from (Prod.ext_iff.1 hr).2.symm]) hp hv

omit [Machine] in
/-- a second of flight from 43 degrees of latitude, 1000 m and 100 m/s north -/
theorem one_second_cruise (cs : List (V3 (Rnd r) × V3 (Rnd r) × Int)) (sx : St ℝ) (hc : Sampled 0 cs) (hT : lastTime 0 cs ≤ 1000000) :
    Cruising (Strapdown.init sx (valV (r := r) ![⟨3 / 4⟩, ⟨1⟩, ⟨1000⟩]) (valV (r := r) ![⟨100⟩, ⟨0⟩, ⟨0⟩]) (valV (r := r) ![⟨0⟩, ⟨0⟩, ⟨0⟩]) 0).2
        (exactCalls cs) := by
  set p := valV (r := r) ![⟨3 / 4⟩, ⟨1⟩, ⟨1000⟩] with hp
  set v := valV (r := r) ![⟨100⟩, ⟨0⟩, ⟨0⟩] with hv
  set e := valV (r := r) ![⟨0⟩, ⟨0⟩, ⟨0⟩] with he
  have hl0 := lastTime_ge 0 cs hc
  have hT1 : ((lastTime 0 cs - 0 : Int) : ℝ) / 1000000 ≤ 1 := by
    have : ((lastTime 0 cs - 0 : Int) : ℝ) ≤ 1000000 := by exact_mod_cast (by omega)
    rw [div_le_iff₀ (by norm_num)]; linarith
  have hT0 : (0 : ℝ) ≤ ((lastTime 0 cs - 0 : Int) : ℝ) / 1000000 := by
    have : (0 : ℝ) ≤ ((lastTime 0 cs - 0 : Int) : ℝ) := by exact_mod_cast (by omega)
    positivity
  have hR : Room p v (((lastTime 0 cs - 0 : Int) : ℝ) / 1000000) := by
    generalize ((lastTime 0 cs - 0 : Int) : ℝ) / 1000000 = T at *
    intro i
    fin_cases i <;> simp [st6, hp, hv, valV, abs_of_pos] <;> linarith
  exact cruising_of_room cs 0 (Strapdown.init sx p v e 0).2 p v _ (init_ready sx p v e 0) (C34_euler_is_rotation e).2 hc hR

/-- The hypotheses of C124 are met for every sampled sequence of calls of at most one second, from 43 degrees of latitude, 1000 m and
100 m/s north. -/
example (cs : List (V3 (Rnd nearest) × V3 (Rnd nearest) × Int)) (sx : St ℝ) (hc : Sampled 0 cs) (hT : lastTime 0 cs ≤ 1000000) :
    Rounds53 nearest
    ∧ Cruising (Strapdown.init sx (valV (r := nearest) ![⟨3 / 4⟩, ⟨1⟩, ⟨1000⟩]) (valV (r := nearest) ![⟨100⟩, ⟨0⟩, ⟨0⟩]) (valV (r := nearest) ![⟨0⟩, ⟨0⟩, ⟨0⟩]) 0).2
        (exactCalls cs) ∧ lastTime 0 cs - 0 ≤ 100000000 :=
  ⟨nearest_rounds, one_second_cruise cs sx hc hT, by omega⟩

/-- sampled calls exist: any positive number of 10 ms steps with increments (2⁻¹⁰, 2⁻¹⁰, 2⁻¹⁰) -/
example (n : ℕ) (t : Int) : Sampled (r := nearest) t ((List.range n).map fun (k : ℕ) => (fun _ => ⟨1 / 1024⟩, fun _ => ⟨1 / 1024⟩, t + 10000 * ((k : Int) + 1))) := by
  have hl := len3_of_entries (v := valV fun _ : Fin 3 => (⟨1 / 1024⟩ : Rnd nearest)) (c := 1 / 1024) (by norm_num) (fun i => by simp [valV])
  have h0 : 1e-160 ≤ len3 (valV (fun _ : Fin 3 => (⟨1 / 1024⟩ : Rnd nearest))) :=
    le_trans (by simp [valV]; norm_num) (le_len3 (valV fun _ : Fin 3 => (⟨1 / 1024⟩ : Rnd nearest)) 0)
  suffices h : ∀ (m : ℕ), Sampled (r := nearest) (t + 10000 * m) ((List.range n).map fun k => (fun _ => ⟨1 / 1024⟩, fun _ => ⟨1 / 1024⟩, t + 10000 * ((k + m : ℕ) + 1))) by
    simpa using h 0
  induction n with
  | zero => intro m; trivial
  | succ n ih =>
    intro m
    rw [List.range_succ_eq_map, List.map_cons, List.map_map]
    refine ⟨by simp only; push_cast; constructor <;> linarith, ?_, ⟨h0, by linarith⟩, ?_⟩
    · refine hl.trans ?_
      simp only
      have e : ((t + 10000 * (((0 + m : ℕ) : Int) + 1) - (t + 10000 * (m : Int)) : Int) : ℝ) = 10000 := by push_cast; ring
      rw [e]; norm_num
    · have := ih (m + 1)
      convert this using 2
      · push_cast; ring
      · funext k
        simp only [Function.comp]
        congr 2
        push_cast; ring

end NavFuse.Props
