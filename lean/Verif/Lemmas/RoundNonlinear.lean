import Verif.Props.LeastSquaresDbl
import Verif.Props.GaussNewton

/-! # Helpers for the Gauss-Newton iteration in doubles -/

namespace NavFuse
namespace Dbl
variable {r : ℝ → ℝ}

/-- a non-negative double -/
def NN (X : Dbl r) : Prop := X = ⟨.pinf⟩ ∨ ∃ v : ℝ, 0 ≤ v ∧ X = .fin v

theorem rd_NN (h : Rounds53 r) {v : ℝ} (hv : 0 ≤ v) : NN (rd r (.fin v)) := by
  have r0 : 0 ≤ r v := by have := h.mono hv; rwa [h.zero] at this
  rw [rd]
  split_ifs with h1 h2
  · exact Or.inr ⟨_, r0, rfl⟩
  · exact Or.inl rfl
  · exfalso
    have : v = 0 := le_antisymm (not_lt.1 h2) hv
    rw [this, h.zero, abs_zero] at h1
    exact h1 (by positivity)

theorem NN.add (h : Rounds53 r) {X Y : Dbl r} (hX : NN X) (hY : NN Y) : NN (X + Y) := by
  rcases hX with rfl | ⟨x, hx, rfl⟩ <;> rcases hY with rfl | ⟨y, hy, rfl⟩
  · exact Or.inl rfl
  · exact Or.inl rfl
  · exact Or.inl rfl
  · exact rd_NN h (add_nonneg hx hy)

theorem NN.eval (h : Rounds53 r) {ι : Type} {F : ι → Dbl r} (hF : ∀ i, NN (F i)) (t : SumTree ι) : NN (t.eval F) := by
  induction t with
  | leaf i => exact hF i
  | node s t hs ht => exact hs.add h ht

end Dbl

namespace Props
open Matrix Spec KA Lsq
variable [Machine] {r : ℝ → ℝ} {n m : ℕ}

theorem vsq_NN (h : Rounds53 r) (g : Fin n → ℝ) : Dbl.NN (vsqNorm (dV g : Fin n → Dbl r)) := by
  unfold vsqNorm vdot
  cases n with
  | zero =>
    obtain ⟨x, ex, dx⟩ := (Rl.zero h).near
    refine Or.inr ⟨x, ?_, ex⟩
    have : x = 0 := by simpa using dx
    rw [this]
  | succ n => exact Dbl.NN.eval h (fun i => Dbl.rd_NN h (mul_self_nonneg (g i))) _

omit [Machine] in
theorem abs_le_len (v : Fin n → ℝ) (i : Fin n) : |v i| ≤ len v := by
  unfold len
  rw [← Real.sqrt_sq_eq_abs]
  exact Real.sqrt_le_sqrt (Finset.single_le_sum (f := fun i => v i ^ 2) (fun _ _ => sq_nonneg _) (Finset.mem_univ i))

omit [Machine] in
theorem len_le_of {v : Fin n → ℝ} {a : ℝ} (h : ∀ i, |v i| ≤ a) (n1 : 0 < n) : len v ≤ n * a := by
  have a0 : 0 ≤ a := (abs_nonneg _).trans (h ⟨0, n1⟩)
  have n1' : (1 : ℝ) ≤ n := by exact_mod_cast n1
  refine abs_le_of_sq_le_sq' ?_ (by positivity) |>.2
  rw [len_sq]
  refine (dotSelf_le h).trans ?_
  rw [mul_pow]
  exact mul_le_mul_of_nonneg_right (by nlinarith) (sq_nonneg a)

omit [Machine] in
theorem sqrt_diff {a b d : ℝ} (ha : 0 ≤ a) (hb : 0 ≤ b) (d0 : 0 ≤ d) (h : |a - b| ≤ d ^ 2) : |Real.sqrt a - Real.sqrt b| ≤ d := by
  have key : ∀ a b : ℝ, 0 ≤ b → a - b ≤ d ^ 2 → Real.sqrt a ≤ Real.sqrt b + d := fun a b hb h => by
    rw [Real.sqrt_le_left (by positivity)]
    have := Real.sq_sqrt hb
    have := Real.sqrt_nonneg b
    nlinarith
  have := abs_le.1 h
  rw [abs_le]
  constructor
  · have := key b a ha (by linarith); linarith
  · have := key a b hb (by linarith); linarith

/-- the computed length -/
theorem vnorm_D (h : Rounds53 r) {g : Fin n → ℝ} {t : ℝ} (hn : n ≤ 100) (hg : len g ≤ t) (t0 : 1e-100 ≤ t) (t1 : t ≤ 1e90) :
    ∃ v, vnorm (dV g : Fin n → Dbl r) = .fin v ∧ |v - len g| ≤ t / 1000 := by
  have t00 : 0 ≤ t := le_trans (by norm_num) t0
  have hn' : (n : ℝ) ≤ 100 := by exact_mod_cast hn
  have tt : t * t ≤ 1e180 := (mul_le_mul t1 t1 t00 (by norm_num)).trans (by norm_num)
  have s : ∑ _l : Fin n, t * t = n * (t * t) := by simp
  have hd := dot_rl h (F := (dV g : Fin n → Dbl r)) (G := dV g) (y := g) (z := g) (M := fun _ => t) (N := fun _ => t) (k := 0) (k' := 0)
    (fun i => Rl.exact ((abs_le_len g i).trans hg)) (fun i => Rl.exact ((abs_le_len g i).trans hg))
    (fun _ => le_trans (by norm_num) (mul_le_mul t0 t0 (by norm_num) t00))
    (by rw [s]; exact (mul_le_mul hn' tt (by positivity) (by norm_num)).trans (by norm_num)) (by omega)
  rw [s] at hd
  obtain ⟨d, ed, dd⟩ := hd.near
  have ed' : vsqNorm (dV g : Fin n → Dbl r) = .fin d := ed
  have d0 : 0 ≤ d := by
    rcases vsq_NN h g with e | ⟨v, hv, e⟩
    · rw [ed'] at e; cases e
    · rw [ed'] at e
      have : d = v := by injection e with e; injection e
      rw [this]; exact hv
  have e1 : ∑ l, g l * g l = len g ^ 2 := by rw [len_sq]; rfl
  rw [e1] at dd
  have tol : (gr (0 + 0 + 1 + n) - 1) * (n * (t * t)) ≤ (t / 10000) ^ 2 := by
    have g1 := gr_opTol (k := 0 + 0 + 1 + n) (by omega)
    have g2 : opTol (0 + 0 + 1 + n) ≤ 1e-12 := by
      unfold opTol
      rw [div_le_iff₀ (by positivity)]
      push_cast
      norm_num
      linarith
    have g3 : (gr (0 + 0 + 1 + n) - 1) * (n * (t * t)) ≤ 1e-12 * (100 * (t * t)) :=
      mul_le_mul (g1.trans g2) (mul_le_mul_of_nonneg_right hn' (by positivity)) (by positivity) (by norm_num)
    refine g3.trans ?_
    rw [div_pow]
    have : 0 ≤ t * t := by positivity
    norm_num
    nlinarith
  have sd := sqrt_diff d0 (sq_nonneg (len g)) (div_nonneg t00 (by norm_num)) (dd.trans tol)
  rw [Real.sqrt_sq (len_nonneg g)] at sd
  have sM : |Real.sqrt d| ≤ 2 * t := by
    rw [abs_of_nonneg (Real.sqrt_nonneg d)]
    have := (abs_le.1 sd).2
    linarith
  have rf := h.rel_floor sM (le_trans (le_trans (by norm_num) t0) (by linarith))
  have fin : |r (Real.sqrt d)| < 2 ^ 1024 := by
    refine lt_of_le_of_lt ?_ Dbl.big
    have a := abs_add_le (r (Real.sqrt d) - Real.sqrt d) (Real.sqrt d)
    rw [sub_add_cancel] at a
    have : ulp * (2 * t) ≤ 1 * (2 * t) := mul_le_mul_of_nonneg_right (by unfold ulp; norm_num) (by linarith)
    have : (4 : ℝ) * t ≤ 4 * 1e90 := by linarith
    refine le_trans ?_ (this.trans (by norm_num))
    linarith
  refine ⟨r (Real.sqrt d), ?_, ?_⟩
  · unfold vnorm
    rw [ed']
    show Dbl.rd r (Flt.sqrt (XR.fin d)) = _
    rw [XR.X_sqrt _ d0, Dbl.rd_fin fin]
  · have a := abs_add_le (r (Real.sqrt d) - Real.sqrt d) (Real.sqrt d - len g)
    rw [sub_add_sub_cancel] at a
    have : ulp * (2 * t) ≤ 1e-10 * (2 * t) := mul_le_mul_of_nonneg_right (by unfold ulp; norm_num) (by linarith)
    norm_num at this
    linarith

/-- a short step is recognised -/
theorem vnorm_stop (h : Rounds53 r) {g : Fin n → ℝ} {t eps : ℝ} (hn : n ≤ 100) (hg : len g ≤ t) (e0 : 1e-90 ≤ eps) (e1 : eps ≤ 1e80) (ht : 101 / 100 * t ≤ eps) :
    Flt.lt (.fin eps : Dbl r) (vnorm (dV g)) = false := by
  have lg := len_nonneg g
  have hle : len g ≤ max t 1e-100 := hg.trans (le_max_left _ _)
  have hm : max t 1e-100 ≤ eps := max_le (by linarith) (le_trans (by norm_num) e0)
  obtain ⟨v, ev, dv⟩ := vnorm_D h hn hle (le_max_right _ _) (hm.trans (e1.trans (by norm_num)))
  have a := (abs_le.1 dv).2
  have : v ≤ eps := by
    rcases max_cases t (1e-100 : ℝ) with ⟨e, -⟩ | ⟨e, -⟩
    · rw [e] at a; linarith
    · rw [e] at a hle; norm_num at a e0 hle ⊢; linarith
  rw [ev]
  show Flt.lt (XR.fin eps) (XR.fin v) = false
  rw [XR.X_lt]
  exact lt_false_R this

/-- a step at which the loop ends is short -/
theorem vnorm_ends (h : Rounds53 r) {g : Fin n → ℝ} {eps : ℝ} (hn : n ≤ 100) (hg : len g ≤ 1e90) (e0 : 1e-90 ≤ eps)
    (hs : Flt.lt (.fin eps : Dbl r) (vnorm (dV g)) = false) : len g ≤ 101 / 100 * eps := by
  by_contra hh
  push Not at hh
  have e00 : 0 < eps := lt_of_lt_of_le (by norm_num) e0
  have lo : (1e-100 : ℝ) ≤ len g := le_trans (le_trans (by norm_num) e0) (by linarith)
  obtain ⟨v, ev, dv⟩ := vnorm_D h hn le_rfl lo hg
  have a := (abs_le.1 dv).1
  rw [ev] at hs
  have hs' : Flt.lt (XR.fin eps) (XR.fin v) = false := hs
  rw [XR.X_lt, ← Bool.not_eq_true, R_lt, not_lt] at hs'
  linarith

omit [Machine] in
/-- one step with a perturbed measurement function and Jacobian -/
theorem gn_perturbed {h : (Fin n → ℝ) → Fin m → ℝ} {D : (Fin n → ℝ) → Matrix (Fin m) (Fin n) ℝ} {y yh : Fin m → ℝ} {xs x dx : Fin n → ℝ}
    {H : Matrix (Fin m) (Fin n) ℝ} {ρ c l e a b : ℝ} (c0 : 0 < c) (l0 : 0 ≤ l)
    (deriv : ∀ x, len (x - xs) ≤ ρ → HasFDerivAt h (asDeriv (D x)) x)
    (lip : ∀ x x', len (x - xs) ≤ ρ → len (x' - xs) ≤ ρ → ∀ v, len ((D x - D x') *ᵥ v) ≤ l * len (x - x') * len v)
    (stat : (D xs)ᵀ *ᵥ (y - h xs) = 0) (res : len (y - h xs) ≤ e) (hx : len (x - xs) ≤ ρ)
    (lower : ∀ v, c * len v ≤ len (H *ᵥ v)) (b0 : 0 ≤ b) (hy : len (yh - h x) ≤ a) (hH : ∀ v, len ((H - D x) *ᵥ v) ≤ b * len v)
    (hd : (Hᵀ * H) *ᵥ dx = Hᵀ *ᵥ (y - yh)) :
    len (x + dx - xs) ≤ (l / (2 * c) * len (x - xs) + b / c + l * e / c ^ 2) * len (x - xs) + (a / c + b * e / c ^ 2) := by
  have ρ0 : 0 ≤ ρ := (len_nonneg _).trans hx
  have on : ∀ t ∈ Set.Icc (0 : ℝ) 1, len (x + t • (xs - x) - xs) ≤ ρ := fun t ht => by
    have : x + t • (xs - x) - xs = (1 - t) • (x - xs) := by ext i; simp; ring
    rw [this, len_smul, abs_of_nonneg (by linarith [ht.2])]
    exact (mul_le_of_le_one_left (len_nonneg _) (by linarith [ht.1])).trans hx
  have flip : len (xs - x) = len (x - xs) := by rw [← len_neg]; congr 1; abel
  have tl := taylor_le (one_posDef (m := m)) (h := h) (D := D) (x := x) (d := xs - x) (l := l * len (x - xs) ^ 2) (fun t ht => deriv _ (on t ht)) (fun t ht => by
    have a := lip _ x (on t ht) hx (xs - x)
    have : x + t • (xs - x) - x = t • (xs - x) := by abel
    rw [this, len_smul, abs_of_nonneg ht.1, flip] at a
    rw [wlen_one]
    exact a.trans (le_of_eq (by ring)))
  rw [show x + (xs - x) = xs by abel, wlen_one] at tl
  obtain ⟨p, ep⟩ : ∃ p, p = x + dx - xs := ⟨_, rfl⟩
  obtain ⟨R, eR⟩ : ∃ R, R = h xs - h x - D x *ᵥ (xs - x) := ⟨_, rfl⟩
  rw [← ep]
  rw [← eR] at tl
  have h0 : len (xs - xs) ≤ ρ := by rw [sub_self]; simpa [len] using ρ0
  obtain ⟨S, eS⟩ : ∃ S, S = R + -(yh - h x) + -((H - D x) *ᵥ (xs - x)) := ⟨_, rfl⟩
  have Sle : len S ≤ l * len (x - xs) ^ 2 / 2 + a + b * len (x - xs) := by
    rw [eS]
    have a1 := len_add_le (R + -(yh - h x)) (-((H - D x) *ᵥ (xs - x)))
    have a2 := len_add_le R (-(yh - h x))
    have a3 := hH (xs - x)
    rw [len_neg] at a1 a2
    rw [flip] at a3
    linarith
  have e1 : (Hᵀ * H) *ᵥ p = Hᵀ *ᵥ S + (H - D xs)ᵀ *ᵥ (y - h xs) := by
    have q : p = dx - (xs - x) := by rw [ep]; abel
    rw [q, mulVec_sub, hd, eS, eR, transpose_sub, sub_mulVec _ _ (y - h xs), stat, sub_zero, ← mulVec_mulVec, ← mulVec_sub, ← mulVec_add]
    congr 1
    rw [sub_mulVec]
    abel
  have e2 : len (H *ᵥ p) ^ 2 = p ⬝ᵥ ((Hᵀ * H) *ᵥ p) := by
    rw [len_sq, ← mulVec_mulVec, dotProduct_mulVec p, vecMul_transpose]
  rw [e1, dotProduct_add, dotProduct_mulVec p, vecMul_transpose, dotProduct_mulVec p (H - D xs)ᵀ, vecMul_transpose] at e2
  have b1 := dot_le (H *ᵥ p) S
  have b2 := dot_le ((H - D xs) *ᵥ p) (y - h xs)
  have b3 : len ((H - D xs) *ᵥ p) ≤ (b + l * len (x - xs)) * len p := by
    have q : (H - D xs) *ᵥ p = (H - D x) *ᵥ p + (D x - D xs) *ᵥ p := by rw [← add_mulVec]; congr 1; abel
    rw [q]
    have := len_add_le ((H - D x) *ᵥ p) ((D x - D xs) *ᵥ p)
    have := hH p
    have := lip x xs hx h0 p
    linarith
  have b5 := lower p
  have e0 : 0 ≤ e := (len_nonneg _).trans res
  have a0 : 0 ≤ a := (len_nonneg _).trans hy
  obtain ⟨s, es⟩ : ∃ s, s = len (x - xs) := ⟨_, rfl⟩
  obtain ⟨q, eq⟩ : ∃ q, q = len p := ⟨_, rfl⟩
  obtain ⟨A, eA⟩ : ∃ A, A = len (H *ᵥ p) := ⟨_, rfl⟩
  have q0 : 0 ≤ q := eq ▸ len_nonneg _
  have s0 : 0 ≤ s := es ▸ len_nonneg _
  have A0 : 0 ≤ A := eA ▸ len_nonneg _
  rw [← es] at b3 Sle ⊢
  rw [← eq] at b3 b5 ⊢
  rw [← eA] at b1 b5 e2
  have b6 : len ((H - D xs) *ᵥ p) * len (y - h xs) ≤ (b + l * s) * q * e := mul_le_mul b3 res (len_nonneg _) (by positivity)
  have b7 := mul_le_mul_of_nonneg_left Sle A0
  have k1 : A ^ 2 ≤ A * (l * s ^ 2 / 2 + a + b * s) + q * ((b + l * s) * e) := by linarith
  have k2 : A ^ 2 ≤ A * (l * s ^ 2 / 2 + a + b * s + (b + l * s) * e / c) := by
    have : q ≤ A / c := by rw [le_div_iff₀ c0]; linarith
    have := mul_le_mul_of_nonneg_right this (show 0 ≤ (b + l * s) * e by positivity)
    have e : A / c * ((b + l * s) * e) = A * ((b + l * s) * e / c) := by ring
    rw [mul_add, ← e]
    linarith
  have k3 : A ≤ l * s ^ 2 / 2 + a + b * s + (b + l * s) * e / c := by
    rcases A0.eq_or_lt with z | z
    · rw [← z]; positivity
    · rw [_root_.sq] at k2; exact le_of_mul_le_mul_left k2 z
  have k4 : c * q ≤ c * ((l / (2 * c) * s + b / c + l * e / c ^ 2) * s + (a / c + b * e / c ^ 2)) := by
    have : c * ((l / (2 * c) * s + b / c + l * e / c ^ 2) * s + (a / c + b * e / c ^ 2)) = l * s ^ 2 / 2 + a + b * s + (b + l * s) * e / c := by field_simp; ring
    rw [this]
    linarith
  exact le_of_mul_le_mul_left k4 c0

end Props
end NavFuse
