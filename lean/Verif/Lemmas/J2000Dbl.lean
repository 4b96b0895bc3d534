import Verif.Lemmas.DblBound
import Verif.Props.J2000Rnd
import Mathlib.Data.Nat.Size

/-! # Absence of overflow in the J2000 matrices and in the calendar

`Bc X x k`: if `k ≤ 600` then the double `X` is finite and has the value of `x`, at most 2ᵏ.  The bounds add up along an expression; that they stay below 600 is
checked once, at the end. -/

namespace NavFuse
open Rotations Props
variable [Machine] {r : ℝ → ℝ}

/-- finite with the value of `x`, at most 2ᵏ, unless `k` is beyond 600 -/
def Bc (X : Dbl r) (x : Rnd r) (k : ℕ) : Prop := k ≤ 600 → Bd X x k

namespace Bc
variable {X Y : Dbl r} {x y : Rnd r} {k l : ℕ}

omit [Machine] in
theorem mono (a : Bc X x k) (h : k ≤ l) : Bc X x l := fun hl => (a (h.trans hl)).mono h
omit [Machine] in
theorem neg (a : Bc X x k) : Bc (-X) (-x) k := fun h => (a h).neg
omit [Machine] in
theorem add (h : Rounds53 r) (a : Bc X x k) (b : Bc Y y l) : Bc (X + Y) (x + y) (k + l + 1) := fun hk =>
  .add h ((a (by omega)).mono (by omega)) ((b (by omega)).mono (by omega)) (by omega)
omit [Machine] in
theorem sub (h : Rounds53 r) (a : Bc X x k) (b : Bc Y y l) : Bc (X - Y) (x - y) (k + l + 1) := fun hk =>
  .sub h ((a (by omega)).mono (by omega)) ((b (by omega)).mono (by omega)) (by omega)
omit [Machine] in
theorem mul (h : Rounds53 r) (a : Bc X x k) (b : Bc Y y l) : Bc (X * Y) (x * y) (k + l) := fun hk => .mul h (a (by omega)) (b (by omega)) hk
omit [Machine] in
theorem div (h : Rounds53 r) (a : Bc X x k) (b : Dbl.Sim Y y) (hy : 1 ≤ y.val) : Bc (X / Y) (x / y) k := fun hk =>
  .div h (l := 0) (a hk) b (by simpa using hy) hk

omit [Machine] in
theorem pow_size (q : ℚ) : |(q : ℝ)| ≤ 2 ^ q.num.natAbs.size := by
  have h1 : |q| ≤ |(q.num : ℚ)| := by
    rw [Rat.abs_def, ← Int.cast_abs, Int.abs_eq_natAbs]
    have hd : (1 : ℚ) ≤ q.den := by exact_mod_cast q.den_pos
    rw [Rat.divInt_eq_div]
    push_cast
    exact div_le_self (by positivity) hd
  have h2 : (|(q.num : ℚ)| : ℚ) ≤ 2 ^ q.num.natAbs.size := by
    rw [← Int.cast_abs, Int.abs_eq_natAbs]
    exact_mod_cast (Nat.lt_size_self q.num.natAbs).le
  have h3 := h1.trans h2
  exact_mod_cast h3

theorem lit (h : Rounds53 r) (q : ℚ) : Bc (Flt.lit q : Dbl r) (Flt.lit q) q.num.natAbs.size := fun hk =>
  have e : |(Flt.lit q : Rnd r).val| ≤ (2 : ℝ) ^ q.num.natAbs.size := Bd.round h (pow_size q)
  ⟨.lit q (Bd.pow600 e hk), e⟩

theorem ofInt (h : Rounds53 r) (n : ℤ) (k : ℕ) (hn : |n| ≤ 2 ^ k) : Bc (Flt.ofInt n : Dbl r) (Flt.ofInt n) k := fun hk =>
  have e : |(Flt.ofInt n : Rnd r).val| ≤ (2 : ℝ) ^ k := Bd.round h (by exact_mod_cast hn)
  ⟨.ofInt n (Bd.pow600 e hk), e⟩

theorem pi (h : Rounds53 r) : Bc (Flt.pi : Dbl r) (Flt.pi) 2 := fun hk =>
  have e : |(Flt.pi : Rnd r).val| ≤ (2 : ℝ) ^ 2 := Bd.round h (by rw [abs_of_pos Real.pi_pos]; linarith [Real.pi_le_four])
  ⟨.pi (Bd.pow600 e hk), e⟩

/-- division by a literal of at least one -/
theorem divl (h : Rounds53 r) (a : Bc X x k) (q : ℚ) (hq : 1 ≤ q) (hk : q.num.natAbs.size ≤ 600) : Bc (X / Flt.lit q) (x / Flt.lit q) k :=
  div h a (lit h q hk).sim (by
    have := h.le_pow (k := 0) (x := (q : ℝ)) (by norm_num) (by simpa using (by exact_mod_cast hq : (1 : ℝ) ≤ (q : ℝ)))
    rw [zpow_zero] at this
    exact this)

omit [Machine] in
theorem floor_abs (v : ℝ) : |((⌊v⌋ : ℤ) : ℝ)| ≤ |v| + 1 := by
  have h1 := Int.floor_le v
  have h2 := Int.lt_floor_add_one v
  have h3 := le_abs_self v
  have h4 := neg_abs_le v
  rw [abs_le]; constructor <;> linarith

theorem floor (a : Bc X x k) : Bc (Flt.floor X) (Flt.floor x) (k + 1) := fun hk => by
  have b := a (by omega)
  refine ⟨?_, ?_⟩
  · rw [b.sim]; rfl
  · refine (floor_abs x.val).trans ?_
    have h1 : (1 : ℝ) ≤ 2 ^ k := one_le_pow₀ (by norm_num)
    rw [pow_succ]; linarith [b.le]

theorem fmod (a : Dbl.Sim X x) (b : Dbl.Sim Y y) (hy : 0 < y.val) (hk : y.val ≤ 2 ^ k) : Bc (Flt.fmod X Y) (Flt.fmod x y) k := fun _ => by
  refine ⟨?_, ?_⟩
  · rw [a, b]
    show (⟨Flt.fmod (XR.fin x.val) (XR.fin y.val)⟩ : Dbl r) = _
    rw [XR.X_fmod _ _ hy.ne']; rfl
  · obtain ⟨-, -, h2, -⟩ := fmod_pos_R x.val y.val hy
    exact h2.le.trans hk

omit [Machine] in
theorem sim (a : Bc X x k) (h : k ≤ 600) : Dbl.Sim X x := (a h).sim

end Bc

/-- comparisons of finite doubles are those of their values -/
theorem Dbl.Sim.lt {X Y : Dbl r} {x y : Rnd r} (a : Dbl.Sim X x) (b : Dbl.Sim Y y) : Flt.lt X Y = Flt.lt x y := by rw [a, b]; rfl
theorem Dbl.Sim.le {X Y : Dbl r} {x y : Rnd r} (a : Dbl.Sim X x) (b : Dbl.Sim Y y) : Flt.le X Y = Flt.le x y := by rw [a, b]; rfl
theorem Dbl.Sim.eq {X Y : Dbl r} {x y : Rnd r} (a : Dbl.Sim X x) (b : Dbl.Sim Y y) : Flt.eq X Y = Flt.eq x y := by rw [a, b]; rfl

open Lean.Parser.Tactic in
/-- the bound of an expression, from the bounds in the context -/
macro "bounds " h:term : tactic => `(tactic| repeat' first
  | assumption
  | exact Bc.lit $h _
  | exact Bc.pi $h
  | (apply Bc.divl $h _ _ (by norm_num) (by decide +kernel))
  | apply Bc.add $h
  | apply Bc.sub $h
  | apply Bc.mul $h
  | apply Bc.neg
  | apply Bc.floor)

theorem arcs_bc (h : Rounds53 r) : Bc (arcs : Dbl r) (arcs : Rnd r) 20 ∧ 1 ≤ (arcs : Rnd r).val := by
  have ap := arcs_ap h
  have lo := arcs_abs
  have m := ap.val_le
  have hp : (0 : ℝ) < arcs := by rw [arcs_R]; exact div_pos (by norm_num) Real.pi_pos
  rw [abs_of_pos hp] at lo
  have e := abs_le.1 ap.err
  refine ⟨fun _ => ⟨?_, m.trans (by norm_num)⟩, by norm_num at e ⊢; linarith⟩
  have n := Bc.mul h (Bc.lit h 3600) (Bc.lit h 180)
  have p := Ap.pi h
  have hpi := abs_le.1 p.err
  refine (Bc.div h n (Bc.pi h (by norm_num)).sim ?_).sim (by decide +kernel)
  have := Real.pi_gt_three
  norm_num at hpi ⊢
  linarith

/-- years since J2000 -/
theorem cent_bc (h : Rounds53 r) {X : Dbl r} {x : Rnd r} (hx : Bc X x 18) : Bc ((X - mjdJ2000) / Flt.lit 36525) ((x - mjdJ2000) / Flt.lit 36525) 36 := by
  unfold mjdJ2000
  exact Bc.mono (by bounds h) (by decide +kernel)

theorem obliquity_bc (h : Rounds53 r) {X : Dbl r} {x : Rnd r} (hx : Bc X x 18) : Bc (meanObliquity X) (meanObliquity x) 300 := by
  have t := cent_bc h hx
  unfold meanObliquity radC
  simp only
  generalize (X - mjdJ2000) / Flt.lit 36525 = T at *
  generalize (x - mjdJ2000) / Flt.lit 36525 = τ at *
  exact Bc.mono (by bounds h) (by decide +kernel)

theorem prec_bc (h : Rounds53 r) {X : Dbl r} {x : Rnd r} (hx : Bc X x 18) :
    Bc (precAngles X).1 (precAngles x).1 600 ∧ Bc (precAngles X).2.1 (precAngles x).2.1 600 ∧ Bc (precAngles X).2.2 (precAngles x).2.2 600 := by
  have t := (cent_bc h hx).mono (l := 36) (by norm_num)
  obtain ⟨ab, al⟩ := arcs_bc h
  have as := ab.sim (by norm_num)
  have z : Bc ((mjdJ2000 - mjdJ2000 : Dbl r) / Flt.lit 36525) ((mjdJ2000 - mjdJ2000) / Flt.lit 36525) 0 := by
    intro _
    have e : |((mjdJ2000 - mjdJ2000 : Rnd r) / Flt.lit 36525).val| ≤ (2 : ℝ) ^ 0 := by
      show |r (r ((mjdJ2000 : Rnd r).val - (mjdJ2000 : Rnd r).val) / (Flt.lit 36525 : Rnd r).val)| ≤ _
      rw [sub_self, h.zero, zero_div, h.zero]; simp
    refine ⟨?_, e⟩
    have b : Bc ((mjdJ2000 - mjdJ2000 : Dbl r) / Flt.lit 36525) ((mjdJ2000 - mjdJ2000) / Flt.lit 36525) 100 := by
      unfold mjdJ2000
      exact Bc.mono (by bounds h) (by decide +kernel)
    exact b.sim (by norm_num)
  unfold precAngles
  simp only
  generalize (X - mjdJ2000) / Flt.lit 36525 = T at *
  generalize (x - mjdJ2000) / Flt.lit 36525 = τ at *
  generalize (mjdJ2000 - mjdJ2000 : Dbl r) / Flt.lit 36525 = Z at *
  generalize (mjdJ2000 - mjdJ2000 : Rnd r) / Flt.lit 36525 = ζ at *
  have zeta : Bc ((((Flt.lit 2306.2181 + (Flt.lit 1.39656 - Flt.lit 0.000139 * Z) * Z) + ((Flt.lit 0.30188 - Flt.lit 0.000344 * Z) + Flt.lit 0.017998 * T) * T) * T) / arcs)
      ((((Flt.lit 2306.2181 + (Flt.lit 1.39656 - Flt.lit 0.000139 * ζ) * ζ) + ((Flt.lit 0.30188 - Flt.lit 0.000344 * ζ) + Flt.lit 0.017998 * τ) * τ) * τ) / arcs) 280 :=
    Bc.mono (Bc.div h (by bounds h) as al) (by decide +kernel)
  have th : Bc ((((Flt.lit 2004.3109 - (Flt.lit 0.85330 + Flt.lit 0.000217 * Z) * Z) - ((Flt.lit 0.42665 + Flt.lit 0.000217 * Z) + Flt.lit 0.041833 * T) * T) * T) / arcs)
      ((((Flt.lit 2004.3109 - (Flt.lit 0.85330 + Flt.lit 0.000217 * ζ) * ζ) - ((Flt.lit 0.42665 + Flt.lit 0.000217 * ζ) + Flt.lit 0.041833 * τ) * τ) * τ) / arcs) 600 :=
    Bc.mono (Bc.div h (by bounds h) as al) (by decide +kernel)
  have zz : Bc (((((Flt.lit 0.79280 + Flt.lit 0.000411 * Z) + Flt.lit 0.000205 * T) * T) * T) / arcs)
      (((((Flt.lit 0.79280 + Flt.lit 0.000411 * ζ) + Flt.lit 0.000205 * τ) * τ) * τ) / arcs) 280 :=
    Bc.mono (Bc.div h (by bounds h) as al) (by decide +kernel)
  exact ⟨(Bc.add h zeta zz).mono (by norm_num), th, zeta.mono (by norm_num)⟩

theorem rev_bc (h : Rounds53 r) : Bc (rev : Dbl r) (rev : Rnd r) 21 := by
  unfold rev
  exact Bc.mono (by bounds h) (by decide +kernel)

theorem args_bc (h : Rounds53 r) {T : Dbl r} {τ : Rnd r} (t : Bc T τ 36) :
    Bc (argPolys T).1 (argPolys τ).1 600 ∧ Bc (argPolys T).2.1 (argPolys τ).2.1 600 ∧ Bc (argPolys T).2.2.1 (argPolys τ).2.2.1 600 ∧
    Bc (argPolys T).2.2.2.1 (argPolys τ).2.2.2.1 600 ∧ Bc (argPolys T).2.2.2.2 (argPolys τ).2.2.2.2 600 := by
  have rv := rev_bc h
  have t2 := Bc.mul h t t
  have t3 := Bc.mul h t2 t
  unfold argPolys
  simp only
  refine ⟨?_, ?_, ?_, ?_, ?_⟩ <;> exact Bc.mono (by bounds h) (by decide +kernel)

theorem reduce_bc (h : Rounds53 r) {X : Dbl r} {x : Rnd r} (a : Dbl.Sim X x) : Bc (reduceRev X) (reduceRev x) 43 := by
  have rv := rev_bc h
  have rs := rv.sim (by norm_num)
  have f : Bc (Flt.fmod X rev) (Flt.fmod x rev) 21 := Bc.fmod a rs (by rw [rev_val h]; norm_num) (by rw [rev_val h]; norm_num)
  have fs := f.sim (by norm_num)
  unfold reduceRev
  simp only
  rw [fs.lt ((Bc.lit h 0).sim (by decide +kernel))]
  split_ifs
  · exact (Bc.add h f rv).mono (by norm_num)
  · exact f.mono (by norm_num)

theorem nutArg_bc (h : Rounds53 r) {X0 X1 X2 X3 X4 : Dbl r} {x0 x1 x2 x3 x4 : Rnd r} (a0 : Bc X0 x0 43) (a1 : Bc X1 x1 43) (a2 : Bc X2 x2 43) (a3 : Bc X3 x3 43) (a4 : Bc X4 x4 43)
    (c : NutRow) (hc : NutRow.Small c) : Dbl.Sim (nutArg X0 X1 X2 X3 X4 c) (nutArg x0 x1 x2 x3 x4 c) := by
  obtain ⟨c0, c1, c2, c3, c4, -⟩ := hc
  have cst : ∀ n : ℤ, n.natAbs ≤ 4 → Bc (Flt.ofInt n : Dbl r) (Flt.ofInt n) 2 := fun n hn => .ofInt h n 2 (by rw [Int.abs_eq_natAbs]; exact_mod_cast hn.trans (by norm_num))
  have k0 := cst _ c0; have k1 := cst _ c1; have k2 := cst _ c2; have k3 := cst _ c3; have k4 := cst _ c4
  obtain ⟨ab, al⟩ := arcs_bc h
  unfold nutArg
  exact (Bc.mono (l := 600) (Bc.div h (by bounds h) (ab.sim (by norm_num)) al) (by norm_num)).sim le_rfl

omit [Machine] in
/-- a series, one column -/
theorem series_bc (h : Rounds53 r) (F : NutRow → Dbl r) (f : NutRow → Rnd r) {m : ℕ} (L : List NutRow) (hF : ∀ c ∈ L, Bc (F c) (f c) m) {S : Dbl r} {s : Rnd r} {k : ℕ} (hs : Bc S s k)
    (hm : m ≤ k) : Bc (L.foldl (fun s c => s + F c) S) (L.foldl (fun s c => s + f c) s) (k + L.length) := by
  induction L generalizing S s k with
  | nil => exact hs
  | cons c L ih =>
    have a : Bc (S + F c) (s + f c) (k + 1) := fun hk => Bd.add h (hs (by omega)) ((hF c (by simp) (by omega)).mono hm) hk
    have := ih (fun c' hc' => hF c' (by simp [hc'])) a (by omega)
    rw [show k + (c :: L).length = k + 1 + L.length by simp; omega]
    exact this

omit [Machine] in
theorem nutTable_len : nutTable.length ≤ 120 := by decide +kernel

/-- a term of the series for the longitude and for the obliquity, src/util/Rotations.cpp:803-810 -/
noncomputable def nutSin {α : Type} [Add α] [Sub α] [Mul α] [Div α] [Neg α] [Flt α] (T : α) (c : NutRow) : α :=
  (Flt.ofInt c.c5 + (Flt.ofInt c.c6 * T)) * Flt.sin (nutArg (reduceRev (argPolys T).1) (reduceRev (argPolys T).2.1) (reduceRev (argPolys T).2.2.1)
    (reduceRev (argPolys T).2.2.2.1) (reduceRev (argPolys T).2.2.2.2) c)
noncomputable def nutCos {α : Type} [Add α] [Sub α] [Mul α] [Div α] [Neg α] [Flt α] (T : α) (c : NutRow) : α :=
  (Flt.ofInt c.c7 + (Flt.ofInt c.c8 * T)) * Flt.cos (nutArg (reduceRev (argPolys T).1) (reduceRev (argPolys T).2.1) (reduceRev (argPolys T).2.2.1)
    (reduceRev (argPolys T).2.2.2.1) (reduceRev (argPolys T).2.2.2.2) c)

omit [Machine] in
theorem nutation_any {α : Type} [Add α] [Sub α] [Mul α] [Div α] [Neg α] [Flt α] (x : α) : nutationAngles x
    = ((Flt.lit 0.00001 * nutTable.foldl (fun s c => s + nutSin ((x - mjdJ2000) / Flt.lit 36525) c) (Flt.lit 0)) / arcs,
       (Flt.lit 0.00001 * nutTable.foldl (fun s c => s + nutCos ((x - mjdJ2000) / Flt.lit 36525) c) (Flt.lit 0)) / arcs) := by
  unfold nutationAngles
  simp only
  generalize nutTable = L
  exact congrArg (fun p : α × α => ((Flt.lit 0.00001 * p.1) / arcs, (Flt.lit 0.00001 * p.2) / arcs))
    (foldl_pair (fun s c => s + nutSin ((x - mjdJ2000) / Flt.lit 36525) c) (fun s c => s + nutCos ((x - mjdJ2000) / Flt.lit 36525) c) L (Flt.lit 0, Flt.lit 0))

theorem nutation_bc (h : Rounds53 r) {X : Dbl r} {x : Rnd r} (hx : Bc X x 18) :
    Bc (nutationAngles X).1 (nutationAngles x).1 290 ∧ Bc (nutationAngles X).2 (nutationAngles x).2 290 := by
  have t := cent_bc h hx
  obtain ⟨p0, p1, p2, p3, p4⟩ := args_bc h t
  obtain ⟨ab, al⟩ := arcs_bc h
  have as := ab.sim (by norm_num)
  have z : Bc (Flt.lit 0 : Dbl r) (Flt.lit 0) 60 := (Bc.lit h 0).mono (by decide +kernel)
  have arg : ∀ c ∈ nutTable, _ := fun c hc => nutArg_bc h (reduce_bc h (p0.sim le_rfl)) (reduce_bc h (p1.sim le_rfl)) (reduce_bc h (p2.sim le_rfl)) (reduce_bc h (p3.sim le_rfl))
    (reduce_bc h (p4.sim le_rfl)) c (nutTable_small c hc)
  have cst : ∀ n : ℤ, n.natAbs ≤ 2000000 → Bc (Flt.ofInt n : Dbl r) (Flt.ofInt n) 21 := fun n hn => .ofInt h n 21 (by rw [Int.abs_eq_natAbs]; exact_mod_cast hn.trans (by norm_num))
  have len := nutTable_len
  have s1 := series_bc h (nutSin ((X - mjdJ2000) / Flt.lit 36525)) (nutSin ((x - mjdJ2000) / Flt.lit 36525)) (m := 79) nutTable
    (fun c hc => by
      have hs := nutTable_small c hc
      have a := cst c.c5 hs.2.2.2.2.2.1
      have b := cst c.c6 hs.2.2.2.2.2.2.1
      have s : Bc _ _ 0 := fun _ => Bd.sin h (arg c hc)
      exact (Bc.mul h (Bc.add h a (Bc.mul h b t)) s).mono (by norm_num)) (z.mono (l := 79) (by norm_num)) le_rfl
  have s2 := series_bc h (nutCos ((X - mjdJ2000) / Flt.lit 36525)) (nutCos ((x - mjdJ2000) / Flt.lit 36525)) (m := 79) nutTable
    (fun c hc => by
      have hs := nutTable_small c hc
      have a := cst c.c7 hs.2.2.2.2.2.2.2.1
      have b := cst c.c8 hs.2.2.2.2.2.2.2.2
      have s : Bc _ _ 0 := fun _ => Bd.cos h (arg c hc)
      exact (Bc.mul h (Bc.add h a (Bc.mul h b t)) s).mono (by norm_num)) (z.mono (l := 79) (by norm_num)) le_rfl
  have s1 := s1.mono (l := 199) (by omega)
  have s2 := s2.mono (l := 199) (by omega)
  rw [nutation_any, nutation_any]
  have w : Bc (Flt.lit 0.00001 : Dbl r) (Flt.lit 0.00001) 60 := (Bc.lit h _).mono (by decide +kernel)
  exact ⟨(Bc.div h (Bc.mul h w s1) as al).mono (by norm_num), (Bc.div h (Bc.mul h w s2) as al).mono (by norm_num)⟩

theorem gmst_bc (h : Rounds53 r) {X : Dbl r} {x : Rnd r} (hx : Bc X x 18) : Bc (gmstSec X) (gmstSec x) 500 := by
  have t := cent_bc h hx
  have f := hx.floor
  have t0 : Bc ((Flt.floor X - mjdJ2000) / Flt.lit 36525) ((Flt.floor x - mjdJ2000) / Flt.lit 36525) 37 := by
    unfold mjdJ2000
    exact Bc.mono (by bounds h) (by decide +kernel)
  unfold gmstSec
  simp only
  generalize (X - mjdJ2000) / Flt.lit 36525 = T at *
  generalize (x - mjdJ2000) / Flt.lit 36525 = τ at *
  generalize (Flt.floor X - mjdJ2000) / Flt.lit 36525 = T0 at *
  generalize (Flt.floor x - mjdJ2000) / Flt.lit 36525 = τ0 at *
  exact Bc.mono (by bounds h) (by decide +kernel)

theorem gsTime_bc (h : Rounds53 r) {X Y : Dbl r} {x y : Rnd r} (hx : Bc X x 18) (hy : Bc Y y 18) : Dbl.Sim (gsTime X Y) (gsTime x y) := by
  have g := gmst_bc h hx
  have n := (nutation_bc h hy).1
  have o := (obliquity_bc h hy).sim (by norm_num)
  have c : Bc (Flt.cos (meanObliquity Y)) (Flt.cos (meanObliquity y)) 0 := fun _ => Bd.cos h o
  have q : Bc (gmstSec X / Flt.lit 86400) (gmstSec x / Flt.lit 86400) 500 := Bc.divl h g _ (by norm_num) (by decide +kernel)
  have fr : Bc (gmstSec X / Flt.lit 86400 - Flt.floor (gmstSec X / Flt.lit 86400)) (gmstSec x / Flt.lit 86400 - Flt.floor (gmstSec x / Flt.lit 86400)) 0 := by
    intro _
    have e : |(gmstSec x / Flt.lit 86400 - Flt.floor (gmstSec x / Flt.lit 86400)).val| ≤ (2 : ℝ) ^ 0 := by
      refine Bd.round h ?_
      show |(gmstSec x / Flt.lit 86400).val - ((⌊(gmstSec x / Flt.lit 86400).val⌋ : ℤ) : ℝ)| ≤ _
      rw [Int.self_sub_floor, abs_of_nonneg (Int.fract_nonneg _), pow_zero]
      exact (Int.fract_lt_one _).le
    exact ⟨(q.sim (by norm_num)).sub (q.floor.sim (by norm_num)) (Bd.pow600 e (by norm_num)), e⟩
  have p2 : Bc (Flt.lit 2 * Flt.pi : Dbl r) (Flt.lit 2 * Flt.pi) 4 := Bc.mono (by bounds h) (by decide +kernel)
  have hpos : 0 < (Flt.lit 2 * Flt.pi : Rnd r).val := by
    have h1 : (1 : ℝ) ≤ (Flt.lit 2 : Rnd r).val := by
      have := h.le_pow (k := 0) (x := ((2 : ℚ) : ℝ)) (by norm_num) (by norm_num)
      rw [zpow_zero] at this; exact this
    have h2 : (1 : ℝ) ≤ (Flt.pi : Rnd r).val := by
      have := h.le_pow (k := 0) (x := Real.pi) (by norm_num) (by rw [zpow_zero]; linarith [Real.pi_gt_three])
      rw [zpow_zero] at this; exact this
    have := h.le_pow (k := 0) (x := (Flt.lit 2 : Rnd r).val * (Flt.pi : Rnd r).val) (by norm_num) (by rw [zpow_zero]; nlinarith)
    rw [zpow_zero] at this
    exact lt_of_lt_of_le one_pos this
  have s := Bc.add h (Bc.mul h p2 fr) (Bc.mul h n c)
  have e : ∀ {α : Type} [Add α] [Sub α] [Mul α] [Div α] [Neg α] [Flt α] (x y : α), gsTime x y
      = Flt.fmod (Flt.lit 2 * Flt.pi * (gmstSec x / Flt.lit 86400 - Flt.floor (gmstSec x / Flt.lit 86400)) + (nutationAngles y).1 * Flt.cos (meanObliquity y)) (Flt.lit 2 * Flt.pi) :=
    fun _ _ => rfl
  rw [e, e]
  exact (Bc.fmod (k := 4) (s.sim (by norm_num)) (p2.sim (by norm_num)) hpos ((le_abs_self _).trans (p2 (by norm_num)).le)).sim (by norm_num)

theorem frame_bd (h : Rounds53 r) {X : Dbl r} {x : Rnd r} (a : Dbl.Sim X x) :
    (∀ i j, Bd (frameX X i j) (frameX x i j) 0) ∧ (∀ i j, Bd (frameY X i j) (frameY x i j) 0) ∧ ∀ i j, Bd (frameZ X i j) (frameZ x i j) 0 := by
  have s := Bd.sin h a
  have c := Bd.cos h a
  have z := Bd.zero h 0
  have o := Bd.one h
  refine ⟨fun i j => ?_, fun i j => ?_, fun i j => ?_⟩ <;> fin_cases i <;> fin_cases j
  exacts [o, z, z, z, c, s, z, s.neg, c, c, z, s.neg, z, o, z, s, z, c, c, s, z, s.neg, c, z, z, z, o]

/-- the J2000 matrix of finite doubles is finite and has the values of rounded arithmetic -/
theorem j2k_dbl (h : Rounds53 r) {U : Dbl r} {u : Rnd r} (hu : Bc U u 17) {E : EopVal (Dbl r)} {e : EopVal (Rnd r)} (hx : Dbl.Sim E.xPole e.xPole) (hy : Dbl.Sim E.yPole e.yPole)
    (hut : Bd E.ut1Utc e.ut1Utc 16) (hta : Bd E.taiUtc e.taiUtc 15) : j2kProduct U E = dblM (j2kProduct u e) := by
  have l : Bd (Flt.lit 32.184 : Dbl r) (Flt.lit 32.184 : Rnd r) 15 := by
    have e : |(Flt.lit 32.184 : Rnd r).val| ≤ (2 : ℝ) ^ 15 := Bd.round h (by norm_num [abs_of_pos])
    exact ⟨.lit _ (Bd.pow600 e (by norm_num)), e⟩
  have dv : ∀ {A : Dbl r} {a : Rnd r}, Bd A a 16 → Bd (U + A / Flt.lit 86400) (u + a / Flt.lit 86400) 18 := fun {A a} ha =>
    Bd.add h (hu (by norm_num)) ((Bc.divl h (fun _ => ha) 86400 (by norm_num) (by decide +kernel) (by norm_num)).mono (by norm_num))
  have tt : Bc (ttAny U E) (ttAny u e) 18 := fun _ => dv (Bd.sub h l hta.neg)
  have ut : Bc (ut1Any U E) (ut1Any u e) 18 := fun _ => dv hut
  have ob := obliquity_bc h tt
  obtain ⟨n1, n2⟩ := nutation_bc h tt
  obtain ⟨p1, p2, p3⟩ := prec_bc h tt
  have le6 : ∀ {X : Dbl r} {x : Rnd r} {k : ℕ}, Bc X x k → k ≤ 600 → Dbl.Sim X x := fun a b => a.sim b
  have m1 := Bd.mmul h (Bd.mmul h (frame_bd h hx.neg).2.1 (frame_bd h hy.neg).1) (frame_bd h (gsTime_bc h ut tt)).2.2
  have m2 := Bd.mmul h (Bd.mmul h (frame_bd h (le6 (Bc.sub h ob.neg n2) (by norm_num))).1 (frame_bd h (le6 n1.neg (by norm_num))).2.2) (frame_bd h (le6 ob (by norm_num))).1
  have m3 := Bd.mmul h (Bd.mmul h (frame_bd h (le6 p1.neg le_rfl)).2.2 (frame_bd h (le6 p2 le_rfl)).2.1) (frame_bd h (le6 p3.neg le_rfl)).2.2
  have m := Bd.mmul h (Bd.mmul h m1 m2) m3
  rw [j2k_any, j2k_any]
  funext i j
  exact (m i j).sim

end NavFuse
