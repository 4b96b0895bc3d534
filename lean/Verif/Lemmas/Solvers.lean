import Verif.Model.Solvers
import Verif.XR

/-! # The modelled Eigen solvers are correct at ℝ, and finite at XR -/

namespace NavFuse
open Matrix XR

/-! ## Pivot search -/

theorem argmax_le {n : ℕ} (f : Fin (n + 1) → ℝ) (i : Fin (n + 1)) : f i ≤ f (argmax f) := by
  induction n with
  | zero => rw [Fin.fin_one_eq_zero i, Fin.fin_one_eq_zero (argmax f)]
  | succ n ih =>
    have h := fun j => ih (fun j => f j.castSucc) j
    simp only [argmax]
    split_ifs with c
    · rw [R_lt] at c
      refine Fin.lastCases le_rfl (fun j => ?_) i
      exact (h j).trans c.le
    · rw [R_lt, not_lt] at c
      exact Fin.lastCases c (fun j => h j) i

theorem argmax_X {n : ℕ} (f : Fin (n + 1) → ℝ) : argmax (fun i => fin (f i)) = argmax f := by
  induction n with
  | zero => rfl
  | succ n ih => simp only [argmax, ih fun j => f j.castSucc, X_lt]

/-! ## LU -/

/-- the matrix kills only the zero vector -/
def Inj {n : ℕ} (A : Matrix (Fin n) (Fin n) ℝ) : Prop := ∀ x, A *ᵥ x = 0 → x = 0

theorem inj_of_unit {n : ℕ} {A : Matrix (Fin n) (Fin n) ℝ} (h : IsUnit A.det) : Inj A := fun x hx => by
  have := congrArg (A⁻¹ *ᵥ ·) hx
  simpa [mulVec_mulVec, nonsing_inv_mul A h] using this

section step
variable {n : ℕ} (A : Matrix (Fin (n + 1)) (Fin (n + 1)) ℝ) (p : Fin (n + 1))

/-- rows exchanged -/
def swapRows : Matrix (Fin (n + 1)) (Fin (n + 1)) ℝ := of fun i j => A (Equiv.swap 0 p i) j

theorem swapRows_mulVec (x : Fin (n + 1) → ℝ) : swapRows A p *ᵥ x = fun i => (A *ᵥ x) (Equiv.swap 0 p i) := rfl

variable {A p}
theorem inj_swap (h : Inj A) : Inj (swapRows A p) := fun x hx => h x <| by
  rw [swapRows_mulVec] at hx
  funext i
  have := congrFun hx (Equiv.swap 0 p i)
  simpa using this

theorem pivot_ne (h : Inj A) : swapRows A (argmax fun i => |A i 0|) 0 0 ≠ 0 := by
  intro h0
  have e : swapRows A (argmax fun i => |A i 0|) 0 0 = A (argmax fun i => |A i 0|) 0 := by simp [swapRows]
  rw [e] at h0
  have : ∀ i, A i 0 = 0 := fun i => by
    have := argmax_le (fun i => |A i 0|) i
    simp only [h0, abs_zero] at this
    exact abs_eq_zero.1 (le_antisymm this (abs_nonneg _))
  have hx := h (Pi.single 0 1) (by funext i; simp [this])
  have := congrFun hx 0
  simp at this

theorem mulVec_cons (A : Matrix (Fin (n + 1)) (Fin (n + 1)) ℝ) (x0 : ℝ) (x : Fin n → ℝ) (i : Fin (n + 1)) :
    (A *ᵥ (Fin.cons x0 x : Fin (n + 1) → ℝ)) i = A i 0 * x0 + ∑ j, A i (Fin.succ j) * x j := by
  simp [mulVec, dotProduct, Fin.sum_univ_succ]

/-- what is left after eliminating the first column -/
noncomputable def schur (A : Matrix (Fin (n + 1)) (Fin (n + 1)) ℝ) : Matrix (Fin n) (Fin n) ℝ :=
  of fun i j => A i.succ j.succ - A i.succ 0 / A 0 0 * A 0 j.succ

theorem schur_mulVec (A : Matrix (Fin (n + 1)) (Fin (n + 1)) ℝ) (x : Fin n → ℝ) (i : Fin n) :
    (schur A *ᵥ x) i = (∑ j, A i.succ j.succ * x j) - A i.succ 0 / A 0 0 * ∑ j, A 0 j.succ * x j := by
  simp only [schur, mulVec, dotProduct, of_apply, sub_mul, Finset.sum_sub_distrib, Finset.mul_sum, mul_assoc]

theorem inj_schur (h : Inj A) (h0 : A 0 0 ≠ 0) : Inj (schur A) := fun x hx => by
  have := h (Fin.cons (-(∑ j, A 0 j.succ * x j) / A 0 0) x) <| by
    funext i
    rw [mulVec_cons]
    refine Fin.cases ?_ (fun i => ?_) i
    · simp only [Pi.zero_apply]; field_simp; ring
    · have := congrFun hx i
      rw [schur_mulVec] at this
      simp only [Pi.zero_apply] at this ⊢
      rw [← this]; ring
  funext i
  exact congrFun this i.succ

end step

theorem luSolve_succ {n : ℕ} (A : Matrix (Fin (n + 1)) (Fin (n + 1)) ℝ) (b : Fin (n + 1) → ℝ) (h : Inj A) :
    ∃ (p : Fin (n + 1)), swapRows A p 0 0 ≠ 0 ∧ ∃ x, x = luSolve (schur (swapRows A p)) (fun i => b (Equiv.swap 0 p i.succ)
        - swapRows A p i.succ 0 / swapRows A p 0 0 * b (Equiv.swap 0 p 0))
      ∧ luSolve A b = Fin.cons ((b (Equiv.swap 0 p 0) - ∑ j, swapRows A p 0 (Fin.succ j) * x j) / swapRows A p 0 0) x := by
  refine ⟨argmax fun i => |A i 0|, pivot_ne h, _, rfl, ?_⟩
  have h0 := pivot_ne h
  have e : Flt.eq (Flt.abs (swapRows A (argmax fun i => |A i 0|) 0 0)) (Flt.lit 0) = false := by
    rw [Bool.eq_false_iff, ne_eq, R_eq, R_abs, R_lit, Rat.cast_zero, abs_eq_zero]; exact h0
  rw [luSolve]
  have e' : Flt.eq (Flt.abs (A (Equiv.swap 0 (argmax fun i => Flt.abs (A i 0)) 0) 0)) (Flt.lit 0) = false := e
  simp only [of_apply, e', Bool.false_eq_true, if_false, R_fsum]
  rfl

theorem luSolve_R {n : ℕ} (A : Matrix (Fin n) (Fin n) ℝ) (b : Fin n → ℝ) (h : Inj A) : A *ᵥ luSolve A b = b := by
  induction n with
  | zero => exact Subsingleton.elim _ _
  | succ n ih =>
    obtain ⟨p, h0, x, hx, e⟩ := luSolve_succ A b h
    have hs := ih (schur (swapRows A p)) (fun i => b (Equiv.swap 0 p i.succ) - swapRows A p i.succ 0 / swapRows A p 0 0 * b (Equiv.swap 0 p 0))
      (inj_schur (inj_swap h) h0)
    rw [← hx] at hs
    have key : swapRows A p *ᵥ luSolve A b = fun i => b (Equiv.swap 0 p i) := by
      rw [e]
      funext i
      rw [mulVec_cons]
      refine Fin.cases ?_ (fun i => ?_) i
      · field_simp; ring
      · have := congrFun hs i
        rw [schur_mulVec] at this
        field_simp at this ⊢
        linarith
    rw [swapRows_mulVec] at key
    funext i
    have := congrFun key (Equiv.swap 0 p i)
    simpa using this

theorem luInverse_R {n : ℕ} (A : Matrix (Fin n) (Fin n) ℝ) (h : IsUnit A.det) : A * luInverse A = 1 := by
  ext i j
  have := congrFun (luSolve_R A (fun k => if k = j then Flt.lit 1 else Flt.lit 0) (inj_of_unit h)) i
  have e : (if i = j then Flt.lit 1 else Flt.lit 0 : ℝ) = (1 : Matrix (Fin n) (Fin n) ℝ) i j := by
    rw [one_apply, R_lit, R_lit, Rat.cast_one, Rat.cast_zero]
  rw [← e, ← this]
  rfl

/-! at XR -/

theorem luSolve_X {n : ℕ} (A : Matrix (Fin n) (Fin n) ℝ) (b : Fin n → ℝ) (h : Inj A) : luSolve (finM A) (finV b) = finV (luSolve A b) := by
  induction n with
  | zero => funext i; exact i.elim0
  | succ n ih =>
    have h0 := pivot_ne h
    have ih' := fun b' => ih _ b' (inj_schur (inj_swap (p := argmax fun i => |A i 0|) h) h0)
    have e : ∀ i, swapRows A (argmax fun i => |A i 0|) i = A (Equiv.swap 0 (argmax fun i => |A i 0|) i) := fun i => rfl
    have hd : ∀ x, fin x / fin (A (Equiv.swap 0 (argmax fun i => |A i 0|) 0) 0) = fin (x / A (Equiv.swap 0 (argmax fun i => |A i 0|) 0) 0) :=
      fun x => fin_div _ _ h0
    have c : (Flt.eq (|A (Equiv.swap 0 (argmax fun i => |A i 0|) 0) 0|) (Flt.lit 0 : ℝ)) = false := by
      rw [Bool.eq_false_iff, ne_eq, R_eq, R_lit, Rat.cast_zero, abs_eq_zero]; exact h0
    have c' : Flt.eq (fin |A (Equiv.swap 0 (argmax fun i => |A i 0|) 0) 0|) (fin 0) = false := by
      rw [X_eq]; simpa [rsimp] using c
    rw [luSolve, luSolve]
    simp only [finM_apply, finV_apply, X_abs, argmax_X, of_apply, R_abs, X_lit, Rat.cast_zero, c, c', Bool.false_eq_true, if_false, hd, fin_mul, fin_sub]
    have ih2 := ih' (fun i => b (Equiv.swap 0 (argmax fun i => |A i 0|) i.succ)
      - A (Equiv.swap 0 (argmax fun i => |A i 0|) i.succ) 0 / A (Equiv.swap 0 (argmax fun i => |A i 0|) 0) 0 * b (Equiv.swap 0 (argmax fun i => |A i 0|) 0))
    have ih3 : luSolve (of fun i j => fin (A (Equiv.swap 0 (argmax fun i => |A i 0|) i.succ) j.succ
        - A (Equiv.swap 0 (argmax fun i => |A i 0|) i.succ) 0 / A (Equiv.swap 0 (argmax fun i => |A i 0|) 0) 0
          * A (Equiv.swap 0 (argmax fun i => |A i 0|) 0) j.succ)) (fun i => fin (b (Equiv.swap 0 (argmax fun i => |A i 0|) i.succ)
      - A (Equiv.swap 0 (argmax fun i => |A i 0|) i.succ) 0 / A (Equiv.swap 0 (argmax fun i => |A i 0|) 0) 0 * b (Equiv.swap 0 (argmax fun i => |A i 0|) 0)))
        = _ := ih2
    rw [ih3]
    simp only [finV_apply, fin_mul, X_fsum, fin_sub, hd, R_fsum]
    funext i
    refine Fin.cases ?_ (fun i => ?_) i
    · rfl
    · rfl

theorem luInverse_X {n : ℕ} (A : Matrix (Fin n) (Fin n) ℝ) (h : IsUnit A.det) : luInverse (finM A) = finM A⁻¹ := by
  have e : luInverse (finM A) = finM (luInverse A) := by
    ext i j
    have := congrFun (luSolve_X A (fun k => if k = j then Flt.lit 1 else Flt.lit 0) (inj_of_unit h)) i
    have e : (finV fun k => if k = j then (Flt.lit 1 : ℝ) else Flt.lit 0) = fun k => if k = j then (Flt.lit 1 : XR) else Flt.lit 0 := by
      funext k; simp only [finV]; split_ifs <;> rfl
    rw [e] at this
    exact this
  rw [e, (inv_eq_right_inv (luInverse_R A h)).symm]

/-! ## LDLT -/

/-- symmetric, and positive definite with all eigenvalues above the smallest normal double -/
def WellPos {n : ℕ} (A : Matrix (Fin n) (Fin n) ℝ) : Prop := Aᵀ = A ∧ ∀ x, x ≠ 0 → (dblMin : ℝ) * (x ⬝ᵥ x) < x ⬝ᵥ (A *ᵥ x)

theorem dblMin_pos : (0 : ℝ) < (dblMin : ℝ) := by unfold dblMin; push_cast; positivity

theorem lowerOf_R {n : ℕ} {A : Matrix (Fin n) (Fin n) ℝ} (h : Aᵀ = A) : lowerOf A = A := by
  ext i j
  simp only [lowerOf, of_apply]
  split_ifs
  · rfl
  · rw [← transpose_apply A i j, h]

/-- rows and columns exchanged -/
def swapBoth {n : ℕ} (A : Matrix (Fin (n + 1)) (Fin (n + 1)) ℝ) (p : Fin (n + 1)) : Matrix (Fin (n + 1)) (Fin (n + 1)) ℝ :=
  of fun i j => A (Equiv.swap 0 p i) (Equiv.swap 0 p j)

theorem swapBoth_mulVec {n : ℕ} (A : Matrix (Fin (n + 1)) (Fin (n + 1)) ℝ) (p : Fin (n + 1)) (x : Fin (n + 1) → ℝ) (i : Fin (n + 1)) :
    (swapBoth A p *ᵥ x) i = (A *ᵥ fun j => x (Equiv.swap 0 p j)) (Equiv.swap 0 p i) := by
  simp only [mulVec, dotProduct, swapBoth, of_apply]
  exact Fintype.sum_equiv (Equiv.swap 0 p) _ _ fun j => by simp

theorem wellPos_swap {n : ℕ} {A : Matrix (Fin (n + 1)) (Fin (n + 1)) ℝ} (h : WellPos A) (p : Fin (n + 1)) : WellPos (swapBoth A p) := by
  refine ⟨?_, fun x hx => ?_⟩
  · ext i j
    exact congrFun (congrFun h.1 _) _
  · have := h.2 (fun j => x (Equiv.swap 0 p j)) (fun h => hx <| by
      funext i; have := congrFun h (Equiv.swap 0 p i); simpa using this)
    have e1 : (fun j => x (Equiv.swap 0 p j)) ⬝ᵥ (fun j => x (Equiv.swap 0 p j)) = x ⬝ᵥ x :=
      Fintype.sum_equiv (Equiv.swap 0 p) _ _ fun j => rfl
    have e2 : (fun j => x (Equiv.swap 0 p j)) ⬝ᵥ (A *ᵥ fun j => x (Equiv.swap 0 p j)) = x ⬝ᵥ (swapBoth A p *ᵥ x) :=
      Fintype.sum_equiv (Equiv.swap 0 p) _ _ fun j => by rw [swapBoth_mulVec]; simp
    rwa [e1, e2] at this

theorem wellPos_pivot {n : ℕ} {A : Matrix (Fin (n + 1)) (Fin (n + 1)) ℝ} (h : WellPos A) : (dblMin : ℝ) < A 0 0 := by
  have := h.2 (Pi.single 0 1) (by simp)
  simpa using this

theorem wellPos_schur {n : ℕ} {A : Matrix (Fin (n + 1)) (Fin (n + 1)) ℝ} (h : WellPos A) : WellPos (schur A) := by
  have hp := dblMin_pos
  have h0 := wellPos_pivot h
  have hs : ∀ i j, A i j = A j i := fun i j => congrFun (congrFun h.1 j) i
  have h00 : A 0 0 ≠ 0 := (hp.trans h0).ne'
  refine ⟨?_, fun x hx => ?_⟩
  · ext i j
    simp only [transpose_apply, schur, of_apply]
    rw [hs j.succ i.succ, hs j.succ 0, hs 0 i.succ]
    ring
  · have := h.2 (Fin.cons (-(∑ j, A 0 j.succ * x j) / A 0 0) x) (fun h => hx <| by funext i; exact congrFun h i.succ)
    have e1 : ∀ i : Fin n, (A *ᵥ (Fin.cons (-(∑ j, A 0 j.succ * x j) / A 0 0) x : Fin (n + 1) → ℝ)) i.succ = (schur A *ᵥ x) i := fun i => by
      rw [mulVec_cons, schur_mulVec]; ring
    have e0 : (A *ᵥ (Fin.cons (-(∑ j, A 0 j.succ * x j) / A 0 0) x : Fin (n + 1) → ℝ)) 0 = 0 := by
      rw [mulVec_cons]; field_simp; ring
    rw [dotProduct, dotProduct, Fin.sum_univ_succ, Fin.sum_univ_succ] at this
    simp only [Fin.cons_zero, Fin.cons_succ, e0, e1, mul_zero, zero_add] at this
    refine lt_of_le_of_lt (mul_le_mul_of_nonneg_left ?_ hp.le) this
    have := mul_self_nonneg (-(∑ j, A 0 j.succ * x j) / A 0 0)
    rw [dotProduct]; linarith

theorem ldltGo_R {n : ℕ} (A : Matrix (Fin n) (Fin n) ℝ) (d b : Fin n → ℝ) (h : WellPos A) : A *ᵥ ldltGo A d b = b := by
  induction n with
  | zero => exact Subsingleton.elim _ _
  | succ n ih =>
    rw [ldltGo, lowerOf_R h.1]
    generalize argmax (fun i => Flt.abs (d i)) = p
    have hw := wellPos_swap h p
    have h0 := wellPos_pivot hw
    have hp := dblMin_pos
    have h00 : swapBoth A p 0 0 ≠ 0 := (hp.trans h0).ne'
    have c1 : Flt.lt (Flt.lit 0) (Flt.abs (swapBoth A p 0 0)) = true := by
      rw [R_lt, R_lit, R_abs, Rat.cast_zero]; exact abs_pos.2 h00
    have c2 : Flt.lt (Flt.lit dblMin) (Flt.abs (swapBoth A p 0 0)) = true := by
      rw [R_lt, R_lit, R_abs]; exact h0.trans_le (le_abs_self _)
    have e0 : ∀ i j, A (Equiv.swap 0 p i) (Equiv.swap 0 p j) = swapBoth A p i j := fun i j => rfl
    simp only [of_apply, e0, c1, c2, if_true, R_fsum]
    have hs : ∀ i j, swapBoth A p i j = swapBoth A p j i := fun i j => congrFun (congrFun hw.1 j) i
    have eS : (of fun i j => swapBoth A p (Fin.succ i) (Fin.succ j)
        - swapBoth A p (Fin.succ i) 0 / swapBoth A p 0 0 * (swapBoth A p 0 0 * (swapBoth A p (Fin.succ j) 0 / swapBoth A p 0 0))) = schur (swapBoth A p) := by
      ext i j
      simp only [of_apply, schur]
      rw [hs j.succ 0]; field_simp
    rw [eS]
    have hi := ih (schur (swapBoth A p)) (fun i => d (Equiv.swap 0 p i.succ)) (fun i => b (Equiv.swap 0 p i.succ)
      - swapBoth A p i.succ 0 / swapBoth A p 0 0 * b (Equiv.swap 0 p 0)) (wellPos_schur hw)
    generalize ldltGo (schur (swapBoth A p)) (fun i => d (Equiv.swap 0 p i.succ)) (fun i => b (Equiv.swap 0 p i.succ)
      - swapBoth A p i.succ 0 / swapBoth A p 0 0 * b (Equiv.swap 0 p 0)) = y at hi ⊢
    funext i
    have key := swapBoth_mulVec A p (Fin.cons (b (Equiv.swap 0 p 0) / swapBoth A p 0 0
      - ∑ j, swapBoth A p (Fin.succ j) 0 / swapBoth A p 0 0 * y j) y) (Equiv.swap 0 p i)
    rw [Equiv.swap_apply_self] at key
    rw [← key, mulVec_cons]
    have sum : ∑ j, swapBoth A p (Fin.succ j) 0 / swapBoth A p 0 0 * y j = (∑ j, swapBoth A p 0 (Fin.succ j) * y j) / swapBoth A p 0 0 := by
      rw [Finset.sum_div]; exact Finset.sum_congr rfl fun j _ => by rw [hs j.succ 0]; ring
    rw [sum]
    have fin : ∀ k, swapBoth A p k 0 * (b (Equiv.swap 0 p 0) / swapBoth A p 0 0 - (∑ j, swapBoth A p 0 (Fin.succ j) * y j) / swapBoth A p 0 0)
        + ∑ j, swapBoth A p k (Fin.succ j) * y j = b (Equiv.swap 0 p k) := by
      intro k
      refine Fin.cases ?_ (fun k => ?_) k
      · field_simp; ring
      · have := congrFun hi k
        rw [schur_mulVec] at this
        field_simp at this ⊢
        linarith
    rw [fin, Equiv.swap_apply_self]

theorem ldltGo_X {n : ℕ} (A : Matrix (Fin n) (Fin n) ℝ) (d b : Fin n → ℝ) : ldltGo (finM A) (finV d) (finV b) = finV (ldltGo A d b) := by
  induction n with
  | zero => funext i; exact i.elim0
  | succ n ih =>
    have el : lowerOf (finM A) = finM (lowerOf A) := by
      ext i j
      simp only [lowerOf, of_apply, finM_apply]
      split_ifs <;> rfl
    rw [ldltGo, ldltGo, el]
    simp only [finV_apply, X_abs, argmax_X, R_abs, finM_apply]
    generalize argmax (fun i => |d i|) = p
    generalize lowerOf A = B
    have e0 : ∀ i j, B (Equiv.swap 0 p i) (Equiv.swap 0 p j) = swapBoth B p i j := fun i j => rfl
    simp only [of_apply, e0, X_lit, X_abs]
    generalize swapBoth B p = C
    have hlt : ∀ x y : ℝ, Flt.lt (fin x) (fin y) = Flt.lt x y := fun x y => X_lt x y
    have hp := dblMin_pos
    have hl : ∀ i : Fin n, (if Flt.lt (fin ((0 : ℚ) : ℝ)) (fin |C 0 0|) = true then fin (C i.succ 0) / fin (C 0 0) else fin (C i.succ 0))
        = fin (if Flt.lt (Flt.lit 0) |C 0 0| = true then C i.succ 0 / C 0 0 else C i.succ 0) := by
      intro i
      rw [hlt, R_lit]
      split_ifs with hc
      · rw [R_lt, Rat.cast_zero, abs_pos] at hc
        exact fin_div _ _ hc
      · rfl
    have hz : (if Flt.lt (fin (dblMin : ℝ)) (fin |C 0 0|) = true then fin (b (Equiv.swap 0 p 0)) / fin (C 0 0) else fin ((0 : ℚ) : ℝ))
        = fin (if Flt.lt (Flt.lit dblMin) |C 0 0| = true then b (Equiv.swap 0 p 0) / C 0 0 else Flt.lit 0) := by
      rw [hlt, R_lit, R_lit]
      split_ifs with hc
      · rw [R_lt] at hc
        exact fin_div _ _ (abs_pos.1 (hp.trans hc))
      · rfl
    simp only [hl, hz]
    obtain ⟨l, hl'⟩ : ∃ l : Fin n → ℝ, ∀ i, (if Flt.lt (Flt.lit 0) |C 0 0| = true then C i.succ 0 / C 0 0 else C i.succ 0) = l i := ⟨_, fun _ => rfl⟩
    simp only [hl', fin_mul, fin_sub]
    generalize (if Flt.lt (Flt.lit dblMin) |C 0 0| = true then b (Equiv.swap 0 p 0) / C 0 0 else Flt.lit 0) = z
    have hi := ih (of fun i j => C (Fin.succ i) (Fin.succ j) - l i * (C 0 0 * l j)) (fun i => d (Equiv.swap 0 p i.succ))
      (fun i => b (Equiv.swap 0 p i.succ) - l i * b (Equiv.swap 0 p 0))
    have hi' : ldltGo (of fun i j => fin (C (Fin.succ i) (Fin.succ j) - l i * (C 0 0 * l j))) (fun i => fin (d (Equiv.swap 0 p i.succ)))
      (fun i => fin (b (Equiv.swap 0 p i.succ) - l i * b (Equiv.swap 0 p 0))) = _ := hi
    rw [hi']
    simp only [finV_apply, fin_mul, X_fsum, fin_sub, R_fsum]
    funext i
    rw [finV]
    generalize Equiv.swap 0 p i = k
    refine Fin.cases ?_ (fun k => ?_) k
    · rfl
    · rfl

/-- the pivots `D` of the factorisation -/
def ldltPivots {α : Type} [Add α] [Sub α] [Mul α] [Div α] [Neg α] [Flt α] : {n : Nat} → Matrix (Fin n) (Fin n) α → (Fin n → α) → List α
  | 0, _, _ => []
  | _ + 1, A, d =>
    let p := argmax fun i => Flt.abs (d i)
    let σ := Equiv.swap 0 p
    let A' : Matrix _ _ α := Matrix.of fun i j => lowerOf A (σ i) (σ j)
    let d' := fun i => d (σ i)
    let piv := A' 0 0
    let l := fun i => if Flt.lt (Flt.lit 0) (Flt.abs piv) then A' (Fin.succ i) 0 / piv else A' (Fin.succ i) 0
    piv :: ldltPivots (Matrix.of fun i j => A' (Fin.succ i) (Fin.succ j) - l i * (piv * l j)) (fun i => d' (Fin.succ i))

/-- symmetric positive semidefinite -/
def Psd {n : ℕ} (A : Matrix (Fin n) (Fin n) ℝ) : Prop := Aᵀ = A ∧ ∀ x, 0 ≤ x ⬝ᵥ (A *ᵥ x)

theorem psd_swap {n : ℕ} {A : Matrix (Fin (n + 1)) (Fin (n + 1)) ℝ} (h : Psd A) (p : Fin (n + 1)) : Psd (swapBoth A p) := by
  refine ⟨?_, fun x => ?_⟩
  · ext i j
    exact congrFun (congrFun h.1 _) _
  · have := h.2 (fun j => x (Equiv.swap 0 p j))
    have e2 : (fun j => x (Equiv.swap 0 p j)) ⬝ᵥ (A *ᵥ fun j => x (Equiv.swap 0 p j)) = x ⬝ᵥ (swapBoth A p *ᵥ x) :=
      Fintype.sum_equiv (Equiv.swap 0 p) _ _ fun j => by rw [swapBoth_mulVec]; simp
    rwa [e2] at this

theorem psd_schur {n : ℕ} {A : Matrix (Fin (n + 1)) (Fin (n + 1)) ℝ} (h : Psd A) (h00 : A 0 0 ≠ 0) : Psd (schur A) := by
  have hs : ∀ i j, A i j = A j i := fun i j => congrFun (congrFun h.1 j) i
  refine ⟨?_, fun x => ?_⟩
  · ext i j
    simp only [transpose_apply, schur, of_apply]
    rw [hs j.succ i.succ, hs j.succ 0, hs 0 i.succ]
    ring
  · have := h.2 (Fin.cons (-(∑ j, A 0 j.succ * x j) / A 0 0) x)
    have e1 : ∀ i : Fin n, (A *ᵥ (Fin.cons (-(∑ j, A 0 j.succ * x j) / A 0 0) x : Fin (n + 1) → ℝ)) i.succ = (schur A *ᵥ x) i := fun i => by
      rw [mulVec_cons, schur_mulVec]; ring
    have e0 : (A *ᵥ (Fin.cons (-(∑ j, A 0 j.succ * x j) / A 0 0) x : Fin (n + 1) → ℝ)) 0 = 0 := by
      rw [mulVec_cons]; field_simp; ring
    rw [dotProduct, Fin.sum_univ_succ] at this
    simp only [Fin.cons_zero, Fin.cons_succ, e0, e1, mul_zero, zero_add] at this
    exact this

/-- a positive semidefinite matrix with a zero in the corner has zeros along the edge -/
theorem psd_edge {n : ℕ} {A : Matrix (Fin (n + 1)) (Fin (n + 1)) ℝ} (h : Psd A) (h00 : A 0 0 = 0) (i : Fin n) : A i.succ 0 = 0 := by
  have hs : A 0 i.succ = A i.succ 0 := congrFun (congrFun h.1 i.succ) 0
  by_contra hne
  have key : ∀ t : ℝ, 0 ≤ 2 * t * A i.succ 0 + A i.succ i.succ := by
    intro t
    have := h.2 (Fin.cons t (Pi.single i 1))
    rw [dotProduct, Fin.sum_univ_succ] at this
    simp only [Fin.cons_zero, Fin.cons_succ, mulVec_cons, h00] at this
    have e : ∀ k : Fin (n + 1), ∑ j, A k (Fin.succ j) * (Pi.single i 1 : Fin n → ℝ) j = A k i.succ := fun k => by
      rw [Finset.sum_eq_single i]
      · simp
      · intro j _ hj; simp [Pi.single_eq_of_ne hj]
      · simp
    simp only [e] at this
    have e2 : ∑ j : Fin n, (Pi.single i 1 : Fin n → ℝ) j * (A j.succ 0 * t + A j.succ i.succ) = A i.succ 0 * t + A i.succ i.succ := by
      rw [Finset.sum_eq_single i]
      · simp
      · intro j _ hj; simp [Pi.single_eq_of_ne hj]
      · simp
    rw [e2, hs] at this
    linarith
  have := key (-(A i.succ i.succ + 1) / (2 * A i.succ 0))
  have e : 2 * (-(A i.succ i.succ + 1) / (2 * A i.succ 0)) * A i.succ 0 = -(A i.succ i.succ + 1) := by field_simp
  rw [e] at this
  linarith

theorem ldltGo_psd {n : ℕ} (A : Matrix (Fin n) (Fin n) ℝ) (d w : Fin n → ℝ) (h : Psd A)
    (hc : ∀ p ∈ ldltPivots A d, p = 0 ∨ (dblMin : ℝ) < p) : A *ᵥ ldltGo A d (A *ᵥ w) = A *ᵥ w := by
  induction n with
  | zero => exact Subsingleton.elim _ _
  | succ n ih =>
    generalize hb : A *ᵥ w = b
    rw [ldltGo]
    rw [ldltPivots] at hc
    rw [lowerOf_R h.1] at hc ⊢
    generalize argmax (fun i => Flt.abs (d i)) = p at hc ⊢
    have hw := psd_swap h p
    have hp := dblMin_pos
    have e0 : ∀ i j, A (Equiv.swap 0 p i) (Equiv.swap 0 p j) = swapBoth A p i j := fun i j => rfl
    have hs : ∀ i j, swapBoth A p i j = swapBoth A p j i := fun i j => congrFun (congrFun hw.1 j) i
    have hb' : ∀ i, b (Equiv.swap 0 p i) = (swapBoth A p *ᵥ fun j => w (Equiv.swap 0 p j)) i := fun i => by
      rw [swapBoth_mulVec, ← hb]; simp
    simp only [of_apply, e0, List.mem_cons, forall_eq_or_imp] at hc
    simp only [of_apply, e0, R_fsum]
    obtain ⟨w0, w', hww⟩ : ∃ w0 w', (fun j => w (Equiv.swap 0 p j)) = (Fin.cons w0 w' : Fin (n + 1) → ℝ) := ⟨_, _, (Fin.cons_self_tail _).symm⟩
    rw [hww] at hb'
    simp only [mulVec_cons] at hb'
    have back : ∀ z : Fin (n + 1) → ℝ, (∀ k, (swapBoth A p *ᵥ z) k = b (Equiv.swap 0 p k)) → (A *ᵥ fun i => z (Equiv.swap 0 p i)) = b := by
      intro z hz
      funext i
      have key := swapBoth_mulVec A p z (Equiv.swap 0 p i)
      rw [Equiv.swap_apply_self] at key
      rw [← key, hz, Equiv.swap_apply_self]
    apply back
    obtain ⟨h1, hc⟩ := hc
    rcases h1 with h1 | h1
    · -- zero pivot
      have c1 : Flt.lt (Flt.lit 0) (Flt.abs (swapBoth A p 0 0)) = false := by
        rw [Bool.eq_false_iff, ne_eq, R_lt, R_lit, R_abs, h1]; simp
      have c2 : Flt.lt (Flt.lit dblMin) (Flt.abs (swapBoth A p 0 0)) = false := by
        rw [Bool.eq_false_iff, ne_eq, R_lt, R_lit, R_abs, h1, abs_zero, not_lt]; exact hp.le
      have edge := psd_edge hw h1
      have edge' : ∀ j : Fin n, swapBoth A p 0 j.succ = 0 := fun j => by rw [hs, edge]
      simp only [c1, c2, Bool.false_eq_true, if_false, edge, zero_mul, sub_zero, Finset.sum_const_zero] at hc ⊢
      have hP : Psd (of fun i j => swapBoth A p (Fin.succ i) (Fin.succ j)) := by
        refine ⟨?_, fun x => ?_⟩
        · ext i j; exact hs _ _
        · have := hw.2 (Fin.cons 0 x)
          rw [dotProduct, Fin.sum_univ_succ] at this
          simp only [Fin.cons_zero, Fin.cons_succ, mulVec_cons, edge, zero_mul, zero_add] at this
          exact this
      have hi := ih _ (fun i => d (Equiv.swap 0 p i.succ)) w' hP hc
      have eb : (fun i : Fin n => b (Equiv.swap 0 p i.succ)) = (of fun i j => swapBoth A p (Fin.succ i) (Fin.succ j)) *ᵥ w' := by
        funext i
        rw [hb', edge, zero_mul, zero_add]; rfl
      rw [eb]
      intro k
      rw [mulVec_cons, hb']
      refine Fin.cases ?_ (fun k => ?_) k
      · simp [h1, edge']
      · have := congrFun hi k
        simp only [edge, zero_mul, zero_add]
        exact this
    · -- positive pivot
      have h00 : swapBoth A p 0 0 ≠ 0 := (hp.trans h1).ne'
      have c1 : Flt.lt (Flt.lit 0) (Flt.abs (swapBoth A p 0 0)) = true := by
        rw [R_lt, R_lit, R_abs, Rat.cast_zero]; exact abs_pos.2 h00
      have c2 : Flt.lt (Flt.lit dblMin) (Flt.abs (swapBoth A p 0 0)) = true := by
        rw [R_lt, R_lit, R_abs]; exact h1.trans_le (le_abs_self _)
      have eS : (of fun i j => swapBoth A p (Fin.succ i) (Fin.succ j)
          - swapBoth A p (Fin.succ i) 0 / swapBoth A p 0 0 * (swapBoth A p 0 0 * (swapBoth A p (Fin.succ j) 0 / swapBoth A p 0 0))) = schur (swapBoth A p) := by
        ext i j
        simp only [of_apply, schur]
        rw [hs j.succ 0]; field_simp
      simp only [c1, c2, if_true, eS] at hc ⊢
      have hi := ih (schur (swapBoth A p)) (fun i => d (Equiv.swap 0 p i.succ)) w' (psd_schur hw h00) hc
      have eb : (fun i : Fin n => b (Equiv.swap 0 p i.succ) - swapBoth A p i.succ 0 / swapBoth A p 0 0 * b (Equiv.swap 0 p 0))
          = schur (swapBoth A p) *ᵥ w' := by
        funext i
        rw [hb', hb', schur_mulVec]; field_simp; ring
      rw [eb]
      generalize ldltGo (schur (swapBoth A p)) (fun i => d (Equiv.swap 0 p i.succ)) (schur (swapBoth A p) *ᵥ w') = y at hi ⊢
      have sum : ∑ j, swapBoth A p (Fin.succ j) 0 / swapBoth A p 0 0 * y j = (∑ j, swapBoth A p 0 (Fin.succ j) * y j) / swapBoth A p 0 0 := by
        rw [Finset.sum_div]; exact Finset.sum_congr rfl fun j _ => by rw [hs j.succ 0]; ring
      rw [sum]
      rw [← eb] at hi
      intro k
      rw [mulVec_cons]
      refine Fin.cases ?_ (fun k => ?_) k
      · field_simp; ring
      · have := congrFun hi k
        rw [schur_mulVec] at this
        field_simp at this ⊢
        linarith

end NavFuse
