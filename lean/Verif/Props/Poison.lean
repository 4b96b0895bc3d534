import Verif.Props.StrapdownNav

/-! # C178: a sample that is not finite -/

namespace NavFuse.Props
open Matrix NavFuse.Spec NavFuse.Strapdown NavFuse.NavUtils NavFuse.XR

theorem notfin_add' {a : XR} (h : ¬a.Finite) (b : XR) : ¬(b + a).Finite := by
  rw [XR.add_comm]; exact notfin_add h b
theorem notfin_infSign (x : ℝ) : ¬(infSign x).Finite := by
  rw [infSign]
  split_ifs
  · exact not_finite_pinf
  · exact not_finite_ninf
  · exact not_finite_nan
theorem notfin_mul {a : XR} (h : ¬a.Finite) (b : XR) : ¬(a * b).Finite := by
  cases a with
  | fin x => exact absurd ⟨x, rfl⟩ h
  | nan => rw [nan_mul]; exact not_finite_nan
  | pinf => cases b <;> first | exact not_finite_nan | exact not_finite_pinf | exact not_finite_ninf | exact notfin_infSign _
  | ninf => cases b <;> first | exact not_finite_nan | exact not_finite_pinf | exact not_finite_ninf | exact notfin_infSign _
theorem notfin_mul' {a : XR} (h : ¬a.Finite) (b : XR) : ¬(b * a).Finite := by
  cases a with
  | fin x => exact absurd ⟨x, rfl⟩ h
  | nan => rw [mul_nan]; exact not_finite_nan
  | pinf => cases b <;> first | exact not_finite_nan | exact not_finite_pinf | exact not_finite_ninf | exact notfin_infSign _
  | ninf => cases b <;> first | exact not_finite_nan | exact not_finite_pinf | exact not_finite_ninf | exact notfin_infSign _
theorem notfin_div {a : XR} (h : ¬a.Finite) (b : XR) : ¬(a / b).Finite := by
  cases a with
  | fin x => exact absurd ⟨x, rfl⟩ h
  | nan => rw [nan_div]; exact not_finite_nan
  | pinf =>
    cases b with
    | fin x =>
      show ¬(if x = 0 then pinf else infSign x).Finite
      split_ifs
      · exact not_finite_pinf
      · exact notfin_infSign _
    | _ => exact not_finite_nan
  | ninf =>
    cases b with
    | fin x =>
      show ¬(if x = 0 then ninf else infSign (-x)).Finite
      split_ifs
      · exact not_finite_ninf
      · exact notfin_infSign _
    | _ => exact not_finite_nan

theorem notfin_fsum {n : ℕ} (f : Fin n → XR) (i : Fin n) (h : ¬(f i).Finite) : ¬(fsum f).Finite := by
  cases n with
  | zero => exact i.elim0
  | succ n =>
    have key : ∀ t : SumTree (Fin (n + 1)), i ∈ t.leaves → ¬(t.eval f).Finite := by
      intro t
      induction t with
      | leaf j => intro hi; rw [SumTree.leaves, List.mem_singleton] at hi; rw [SumTree.eval, ← hi]; exact h
      | node s t hs ht =>
        intro hi
        rw [SumTree.leaves, List.mem_append] at hi
        rcases hi with hi | hi
        · exact notfin_add (hs hi) _
        · exact notfin_add' (ht hi) _
    exact key _ (((Flt.order XR).perm n).mem_iff.2 (List.mem_finRange i))

theorem sin_notfin {a : XR} (h : ¬a.Finite) : Flt.sin a = nan := by
  cases a with
  | fin x => exact absurd ⟨x, rfl⟩ h
  | _ => rfl
theorem cos_notfin {a : XR} (h : ¬a.Finite) : Flt.cos a = nan := by
  cases a with
  | fin x => exact absurd ⟨x, rfl⟩ h
  | _ => rfl
theorem sqrt_notfin {a : XR} (h : ¬a.Finite) : ¬(Flt.sqrt a).Finite := by
  cases a with
  | fin x => exact absurd ⟨x, rfl⟩ h
  | pinf => exact not_finite_pinf
  | _ => exact not_finite_nan

theorem attInc_notfin (dTh : V3 XR) (i : Fin 3) (h : ¬(dTh i).Finite) : attInc dTh = nanM := by
  have hm : ¬(vnorm dTh).Finite := sqrt_notfin (notfin_fsum _ i (notfin_mul h _))
  simp only [attInc, sin_notfin hm, cos_notfin hm]
  ext j k
  simp [madd, msmul, xsimp, nanM]

/-- what may be non-finite after a step: the velocities through a non-finite increment, and whatever was non-finite before -/
theorem rk4_notfin_keep (dVN gN : V3 XR) (dt : XR) (y : Fin 6 → XR) (i : Fin 6) (h : ¬(y i).Finite) : ¬(rk4G dVN gN dt y i).Finite :=
  notfin_add (notfin_add (notfin_add (notfin_add h _) _) _) _

theorem rk4_notfin_vel (dVN gN : V3 XR) (dt : XR) (y : Fin 6 → XR) (h : ∀ j, ¬(dVN j).Finite) (i : Fin 6) (hi : 3 ≤ i.val) :
    ¬(rk4G dVN gN dt y i).Finite := by
  have hd : ∀ j, ¬(vdiv dVN dt j).Finite := fun j => notfin_div (h j) _
  have h1 : ¬(dynG dVN gN dt y i).Finite := by
    fin_cases i <;> simp at hi
    · exact notfin_sub (notfin_add (notfin_sub (notfin_add (hd 0) _) _) _) _
    · exact notfin_add (notfin_add (notfin_add (notfin_add (notfin_add (hd 1) _) _) _) _) _
    · exact notfin_sub (notfin_sub (notfin_sub (notfin_add (hd 2) _) _) _) _
  exact notfin_add (notfin_add (notfin_add (notfin_add' (notfin_mul' (notfin_mul' h1 _) _) _) _) _) _

/-- C178: a gyroscope sample with a component that is NaN or infinite turns attitude, position and velocity into NaN, from every state; the call reports success. -/
theorem C178_gyroscope (s : St XR) (l v dV dTh : V3 XR) (R : M3 XR) (t t' : Int) (i : Fin 3) (hi : ¬(dTh i).Finite)
    (h : s.lla = some l ∧ s.vNed = some v ∧ s.RB2N = some R ∧ s.tov = some t) (hf : -2 ^ 63 ≤ t' - t ∧ t' - t < 2 ^ 63) :
    ∃ s', integrate s dV dTh t' = .ok (true, s') ∧ s'.lla = some (fun _ => nan) ∧ s'.vNed = some (fun _ => nan)
      ∧ s'.RB2N = some (Matrix.of fun _ _ => nan) := by
  refine ⟨_, integrate_eval s l v dV dTh R t t' h hf, ?_⟩
  have hY : nextY l v dV R dTh (t' - t) = fun _ => nan := by
    rw [nextY, attInc_notfin dTh i hi, mmul_nan_right, mvec_nan, rk4_nan]
  obtain ⟨h1, h2⟩ := nan3 _ hY
  rw [h1, h2, attInc_notfin dTh i hi, mmul_nan_right]
  exact ⟨rfl, rfl, rfl⟩

/-- C178: an accelerometer sample with one component that is NaN or infinite makes all three velocities non-finite, from every state; the call reports success. -/
theorem C178_accelerometer (s : St XR) (l v dV dTh : V3 XR) (R : M3 XR) (t t' : Int) (i : Fin 3) (hi : ¬(dV i).Finite)
    (h : s.lla = some l ∧ s.vNed = some v ∧ s.RB2N = some R ∧ s.tov = some t) (hf : -2 ^ 63 ≤ t' - t ∧ t' - t < 2 ^ 63) :
    ∃ s' v', integrate s dV dTh t' = .ok (true, s') ∧ s'.vNed = some v' ∧ ∀ j, ¬(v' j).Finite := by
  refine ⟨_, _, integrate_eval s l v dV dTh R t t' h hf, rfl, ?_⟩
  have hd : ∀ j, ¬(mvec (mmul R (attInc dTh)) dV j).Finite := fun j => notfin_fsum _ i (notfin_mul' hi _)
  intro j
  fin_cases j
  · exact rk4_notfin_vel _ _ _ _ hd 3 (by decide)
  · exact rk4_notfin_vel _ _ _ _ hd 4 (by decide)
  · exact rk4_notfin_vel _ _ _ _ hd 5 (by decide)

/-- C178: what is lost stays lost. Through every sequence of samples, of any values, each position or velocity component that is not finite stays so, and a row of the
attitude matrix with one entry that is not finite has no finite entry after the next sample, for good. All calls report success. -/
theorem C178_lost_for_good (s : St XR) (l v : V3 XR) (R : M3 XR) (t : Int) (h : s.lla = some l ∧ s.vNed = some v ∧ s.RB2N = some R ∧ s.tov = some t)
    (incs : List (V3 XR × V3 XR × Int)) (hf : TimesFit t (incs.map fun i => Call.integ i.1 i.2.1 i.2.2)) :
    ∃ s' l' v' R', run s (incs.map fun i => Call.integ i.1 i.2.1 i.2.2) = .ok (List.replicate incs.length true, s')
      ∧ s'.lla = some l' ∧ s'.vNed = some v' ∧ s'.RB2N = some R'
      ∧ (∀ i, ¬(l i).Finite → ¬(l' i).Finite) ∧ (∀ i, ¬(v i).Finite → ¬(v' i).Finite)
      ∧ (incs ≠ [] → ∀ i, (∃ j, ¬(R i j).Finite) → ∀ k, ¬(R' i k).Finite) := by
  induction incs generalizing s l v R t with
  | nil => exact ⟨s, l, v, R, rfl, h.1, h.2.1, h.2.2.1, fun _ => id, fun _ => id, fun h => absurd rfl h⟩
  | cons i incs ih =>
    obtain ⟨dV, dTh, t'⟩ := i
    obtain ⟨s1, e1, r1⟩ : ∃ s1, integrate s dV dTh t' = .ok (true, s1) ∧ Ready s1
        ![nextY l v dV R dTh (t' - t) 0, nextY l v dV R dTh (t' - t) 1, nextY l v dV R dTh (t' - t) 2]
        ![nextY l v dV R dTh (t' - t) 3, nextY l v dV R dTh (t' - t) 4, nextY l v dV R dTh (t' - t) 5] (mmul R (attInc dTh)) t' :=
      ⟨_, integrate_eval s l v dV dTh R t t' h hf.1, rfl, rfl, rfl, rfl⟩
    have hR : ∀ i, (∃ j, ¬(R i j).Finite) → ∀ k, ¬(mmul R (attInc dTh) i k).Finite := by
      rintro i ⟨j, hj⟩ k
      exact notfin_fsum (fun a => R i a * attInc dTh a k) j (notfin_mul hj _)
    obtain ⟨s2, l2, v2, R2, e2, g1, g2, g3, k1, k2, k3⟩ := ih s1 _ _ _ t' r1 hf.2
    refine ⟨s2, l2, v2, R2, ?_, g1, g2, g3, fun i hi => k1 i ?_, fun i hi => k2 i ?_, fun _ i hi => ?_⟩
    · rw [List.map_cons, run, call, e1, Out.ok_bind, e2]; rfl
    · fin_cases i
      · exact rk4_notfin_keep _ _ _ _ 0 hi
      · exact rk4_notfin_keep _ _ _ _ 1 hi
      · exact rk4_notfin_keep _ _ _ _ 2 hi
    · fin_cases i
      · exact rk4_notfin_keep _ _ _ _ 3 hi
      · exact rk4_notfin_keep _ _ _ _ 4 hi
      · exact rk4_notfin_keep _ _ _ _ 5 hi
    · cases incs with
      | nil =>
        injection e2 with e2
        injection e2 with _ e2
        rw [← e2, r1.2.2.1] at g3
        injection g3 with g3
        rw [← g3]
        exact hR i hi
      | cons => exact k3 (by simp) i ⟨0, hR i hi 0⟩

/-- a NaN gyroscope reading, an infinite accelerometer reading, and a position lost in height only -/
example : ¬((![fin 0, nan, fin 1] : V3 XR) 1).Finite ∧ ¬((![fin 0, fin 1, pinf] : V3 XR) 2).Finite ∧ ¬((![fin 0.5, fin 1, ninf] : V3 XR) 2).Finite
    ∧ ∃ s : St XR, ∃ R, (s.lla = some ![fin 0.5, fin 1, ninf] ∧ s.vNed = some (finV 0) ∧ s.RB2N = some R ∧ s.tov = some 0)
      ∧ TimesFit (0 : Int) ([(finV 0, ![fin 0, nan, fin 1], 10), (finV 0, finV 1, 20)].map fun i => Call.integ (α := XR) i.1 i.2.1 i.2.2) := by
  refine ⟨not_finite_nan, not_finite_pinf, not_finite_ninf, (Strapdown.init {} ![fin 0.5, fin 1, ninf] (finV 0) (finV 0) 0).2, _, ⟨rfl, rfl, rfl, rfl⟩, ?_⟩
  simp only [List.map, TimesFit]; norm_num

end NavFuse.Props
