import Verif.Lemmas.J2000Dbl
import Verif.Props.TimeFrame

/-! # From the time stamp to the orientation of the Earth with overflow: C157 -/

set_option linter.unusedSimpArgs false

namespace NavFuse.Props
open Matrix Spec Rotations
variable [Machine] {r : ℝ → ℝ}

/-- a table of finite doubles with the given values -/
def dblT (t : Eops (Rnd r)) : Eops (Dbl r) :=
  ⟨t.mjd.map fun x => .fin x.val, t.xPole.map fun x => .fin x.val, t.yPole.map fun x => .fin x.val, t.ut1Utc.map fun x => .fin x.val, t.lod.map fun x => .fin x.val, t.taiUtc.map fun x => .fin x.val⟩
/-- an object whose table holds finite doubles -/
def dblO (o : Obj (Rnd r)) : Obj (Dbl r) := ⟨o.eopsSet, dblT o.eops⟩

/-- midnight of a date of moderate size -/
theorem midnight_bc (h : Rounds53 r) {Y M D : Dbl r} {y m d : Rnd r} (hy : Bc Y y 31) (hm : Bc M m 31) (hd : Bc D d 31) : Bc (mjdMidnight Y M D) (mjdMidnight y m d) 400 := by
  have two := Dbl.Sim.le (hm.sim (by norm_num)) ((Bc.lit h 2).sim (by decide +kernel))
  have core : ∀ {Y M : Dbl r} {y m : Rnd r}, Bc Y y 40 → Bc M m 40 →
      Bc (((((Flt.lit 365 * Y) - Flt.lit 679004) + (if Flt.le (((Flt.lit 10000 * Y) + (Flt.lit 100 * M)) + D) (Flt.lit 15821004) then
        (-Flt.lit 2 + Flt.floor ((Y + Flt.lit 4716) / Flt.lit 4)) - Flt.lit 1179
      else (Flt.floor (Y / Flt.lit 400) - Flt.floor (Y / Flt.lit 100)) + Flt.floor (Y / Flt.lit 4))) + Flt.floor (Flt.lit 30.6001 * (M + Flt.lit 1))) + D)
      (((((Flt.lit 365 * y) - Flt.lit 679004) + (if Flt.le (((Flt.lit 10000 * y) + (Flt.lit 100 * m)) + d) (Flt.lit 15821004) then
        (-Flt.lit 2 + Flt.floor ((y + Flt.lit 4716) / Flt.lit 4)) - Flt.lit 1179
      else (Flt.floor (y / Flt.lit 400) - Flt.floor (y / Flt.lit 100)) + Flt.floor (y / Flt.lit 4))) + Flt.floor (Flt.lit 30.6001 * (m + Flt.lit 1))) + d) 400 := by
    intro Y M y m hy hm
    have c : Bc (((Flt.lit 10000 * Y) + (Flt.lit 100 * M)) + D) (((Flt.lit 10000 * y) + (Flt.lit 100 * m)) + d) 600 := Bc.mono (by bounds h) (by decide +kernel)
    rw [Dbl.Sim.le (c.sim le_rfl) ((Bc.lit h 15821004).sim (by decide +kernel))]
    split_ifs
    · exact Bc.mono (by bounds h) (by decide +kernel)
    · exact Bc.mono (by bounds h) (by decide +kernel)
  unfold mjdMidnight
  simp only
  rw [two]
  cases hc : (Flt.le m (Flt.lit 2) : Bool)
  · simp only [Bool.false_eq_true, if_false]
    exact core (hy.mono (by norm_num)) (hm.mono (by norm_num))
  · simp only [if_true]
    exact core (Bc.mono (Bc.sub h hy (Bc.lit h 1)) (by decide +kernel)) (Bc.mono (Bc.add h hm (Bc.lit h 12)) (by decide +kernel))

/-- the fraction of the day -/
theorem frac_bc (h : Rounds53 r) {H I S : Dbl r} {hh mi s : Rnd r} (hH : Bc H hh 31) (hI : Bc I mi 31) (hS : Bc S s 31) : Bc (fracDay H I S) (fracDay hh mi s) 150 := by
  unfold fracDay
  exact Bc.mono (by bounds h) (by decide +kernel)

/-- the conversion of a date of moderate size -/
theorem convert_dbl (h : Rounds53 r) {Y M D H I S : Dbl r} {y m d hh mi s : Rnd r} (hy : Bc Y y 31) (hm : Bc M m 31) (hd : Bc D d 31) (hH : Bc H hh 31) (hI : Bc I mi 31) (hS : Bc S s 31) :
    ∃ b u U, convertDatevec2Mjd [y, m, d, hh, mi, s] (Flt.lit 0) = .ok (b, u) ∧ convertDatevec2Mjd [Y, M, D, H, I, S] (Flt.lit 0) = .ok (b, U) ∧ Dbl.Sim U u := by
  have l : ∀ q : ℚ, q.num.natAbs.size ≤ 600 → Dbl.Sim (Flt.lit q : Dbl r) (Flt.lit q : Rnd r) := fun q hq => (Bc.lit h q).sim hq
  have e : dateBad M D H I S = dateBad m d hh mi s := by
    have l0 := l 0 (by decide +kernel)
    have l12 := l 12 (by decide +kernel)
    have l31 := l 31 (by decide +kernel)
    have l23 := l 23 (by decide +kernel)
    have l59 := l 59 (by decide +kernel)
    have t : (31 : ℕ) ≤ 600 := by norm_num
    unfold dateBad
    rw [Dbl.Sim.lt l12 (hm.sim t), Dbl.Sim.lt (hm.sim t) l0, Dbl.Sim.lt l31 (hd.sim t), Dbl.Sim.lt (hd.sim t) l0, Dbl.Sim.lt l23 (hH.sim t), Dbl.Sim.lt (hH.sim t) l0,
      Dbl.Sim.lt l59 (hI.sim t), Dbl.Sim.lt (hI.sim t) l0, Dbl.Sim.lt l59 (hS.sim t), Dbl.Sim.lt (hS.sim t) l0]
  have sm := (Bc.add h (midnight_bc h hy hm hd) (frac_bc h hH hI hS)).sim (by norm_num)
  cases hb : dateBad m d hh mi s
  · refine ⟨true, mjdMidnight y m d + fracDay hh mi s, mjdMidnight Y M D + fracDay H I S, ?_, ?_, sm⟩ <;>
      simp [convertDatevec2Mjd, vecGet, osimp, e, hb]
  · refine ⟨false, Flt.lit 0, Flt.lit 0, ?_, ?_, l 0 (by decide +kernel)⟩ <;>
      simp [convertDatevec2Mjd, vecGet, osimp, e, hb]

/-- the seconds of a time stamp, in doubles -/
theorem seconds_dbl (h : Rounds53 r) (t : Int) (hn : Near t) : Flt.toLong (Flt.ofInt t / Flt.lit 1000000 : Dbl r) = some (Int.tdiv t 1000000) := by
  obtain ⟨l1, l2⟩ := hn
  have a : Bc (Flt.ofInt t : Dbl r) (Flt.ofInt t : Rnd r) 60 := Bc.ofInt h t 60 (by rw [abs_le]; constructor <;> omega)
  have b : Dbl.Sim (Flt.ofInt t / Flt.lit 1000000 : Dbl r) (Flt.ofInt t / Flt.lit 1000000 : Rnd r) := (Bc.divl h a 1000000 (by norm_num) (by decide +kernel)).sim (by norm_num)
  rw [b, ← C05_seconds_exact h t ⟨l1, l2⟩]
  rfl

omit [Machine] in
theorem colGet_map {α β : Type} (g : α → β) (v : List α) (i : Nat) : colGet (v.map g) i = (colGet v i).map g := by
  unfold colGet
  rw [List.getElem?_map]
  cases v[i]? <;> rfl

/-- the parameters of the day, in doubles: found on the same days, and with the same values -/
theorem eop_dbl (h : Rounds53 r) (obj : Obj (Rnd r)) (hR : obj.eops.Rect) (hU : UsualTable (valT obj.eops)) {U : Dbl r} {u : Rnd r} (hu : Bc U u 17) :
    (getCurrentEop obj u = .ok none ∧ getCurrentEop (dblO obj) U = .ok none) ∨
    ∃ e E, getCurrentEop obj u = .ok (some e) ∧ getCurrentEop (dblO obj) U = .ok (some E) ∧ Dbl.Sim E.xPole e.xPole ∧ Dbl.Sim E.yPole e.yPole ∧
      Bd E.ut1Utc e.ut1Utc 16 ∧ Bd E.taiUtc e.taiUtc 15 := by
  cases hset : obj.eopsSet
  · left; constructor <;> simp [getCurrentEop, dblO, hset]
  have hfl := Bc.floor hu
  have hidx : (dblO obj).eops.mjd.findIdx? (fun m => Flt.eq m (Flt.floor U)) = obj.eops.mjd.findIdx? (fun m => Flt.eq m (Flt.floor u)) := by
    show (obj.eops.mjd.map _).findIdx? _ = _
    rw [List.findIdx?_map]
    congr 1
    funext m
    exact Dbl.Sim.eq (Y := Flt.floor U) (y := Flt.floor u) (show Dbl.Sim (Dbl.fin m.val) m from rfl) (hfl.sim (by norm_num))
  cases hf : obj.eops.mjd.findIdx? (fun m => Flt.eq m (Flt.floor u)) with
  | none =>
    left
    constructor
    · simp [getCurrentEop, hset, hf]
    · unfold getCurrentEop
      simp only [hidx, hf]
      simp [dblO, hset]
  | some i =>
    right
    obtain ⟨hi, -, -⟩ := List.findIdx?_eq_some_iff_getElem.1 hf
    obtain ⟨r1, r2, r3, r4, r5⟩ := hR
    have gi : ∀ (v : List (Rnd r)) (k : Nat), k < v.length → ∃ x, colGet v k = .ok x := fun v k hk => ⟨v[k], by simp [colGet, hk]⟩
    have hk : (if i = obj.eops.mjd.length - 1 then i else i + 1) < obj.eops.mjd.length := by split_ifs <;> omega
    have row : ∀ k, k < obj.eops.mjd.length → ∃ x y w l a, colGet obj.eops.xPole k = .ok x ∧ colGet obj.eops.yPole k = .ok y ∧ colGet obj.eops.ut1Utc k = .ok w ∧
        colGet obj.eops.lod k = .ok l ∧ colGet obj.eops.taiUtc k = .ok a ∧ |x.val| ≤ 1 ∧ |y.val| ≤ 1 ∧ |w.val| ≤ 1 ∧ |a.val| ≤ 100 := fun k hk => by
      obtain ⟨x, e1⟩ := gi obj.eops.xPole k (by omega)
      obtain ⟨y, e2⟩ := gi obj.eops.yPole k (by omega)
      obtain ⟨w, e3⟩ := gi obj.eops.ut1Utc k (by omega)
      obtain ⟨l, e4⟩ := gi obj.eops.lod k (by omega)
      obtain ⟨a, e5⟩ := gi obj.eops.taiUtc k (by omega)
      have val : ∀ {v : List (Rnd r)} {x : Rnd r}, colGet v k = .ok x → (v.map Rnd.val)[k]? = some x.val := fun {v x} hh => by
        rw [List.getElem?_map, colGet_some hh]; rfl
      obtain ⟨h1, h2, h3, h4⟩ := hU k ⟨(obj.eops.mjd[k]).val, x.val, y.val, w.val, l.val, a.val⟩
        ⟨by simp [valT, hk], val e1, val e2, val e3, val e4, val e5⟩
      exact ⟨x, y, w, l, a, e1, e2, e3, e4, e5, h1, h2, h3.trans (by norm_num), h4⟩
    obtain ⟨px, py, pu, pl, pt, e1, e2, e3, e4, e5, b1, b2, b3, b5⟩ := row i hi
    obtain ⟨qx, qy, qu, ql, qt, f1, f2, f3, f4, -, c1, c2, c3, -⟩ := row _ hk
    have one : ∀ {x : Rnd r}, |x.val| ≤ 1 → Bc (Dbl.fin x.val : Dbl r) x 0 := fun hx _ => ⟨rfl, by simpa using hx⟩
    have fx : Bc (U - Flt.floor U) (u - Flt.floor u) 0 := fun _ => ⟨(Bc.sub h hu hfl).sim (by norm_num), Bd.round h (by
      show |u.val - (⌊u.val⌋ : ℤ)| ≤ _
      rw [Int.self_sub_floor, abs_of_nonneg (Int.fract_nonneg _), pow_zero]
      exact (Int.fract_lt_one _).le)⟩
    have line : ∀ {p q : Rnd r}, |p.val| ≤ 1 → |q.val| ≤ 1 → Bc ((Dbl.fin p.val : Dbl r) + ((Dbl.fin q.val - Dbl.fin p.val) * (U - Flt.floor U))) (p + ((q - p) * (u - Flt.floor u))) 16 :=
      fun hp hq => (Bc.add h (one hp) (Bc.mul h (Bc.sub h (one hq) (one hp)) fx)).mono (by norm_num)
    obtain ⟨ha, ha1⟩ := arcs_bc h
    have hl : (dblO obj).eops.mjd.length = obj.eops.mjd.length := by simp [dblO, dblT]
    have g : getCurrentEop obj u = .ok (some ⟨(px + ((qx - px) * (u - Flt.floor u))) / arcs, (py + ((qy - py) * (u - Flt.floor u))) / arcs,
        pu + ((qu - pu) * (u - Flt.floor u)), pl + ((ql - pl) * (u - Flt.floor u)), pt⟩) := by
      unfold getCurrentEop
      simp only [hset, hf, e1, e2, e3, e4, e5, osimp, f1, f2, f3, f4]
      rfl
    have G : getCurrentEop (dblO obj) U = .ok (some ⟨(Dbl.fin px.val + ((Dbl.fin qx.val - Dbl.fin px.val) * (U - Flt.floor U))) / arcs,
        (Dbl.fin py.val + ((Dbl.fin qy.val - Dbl.fin py.val) * (U - Flt.floor U))) / arcs,
        Dbl.fin pu.val + ((Dbl.fin qu.val - Dbl.fin pu.val) * (U - Flt.floor U)), Dbl.fin pl.val + ((Dbl.fin ql.val - Dbl.fin pl.val) * (U - Flt.floor U)), Dbl.fin pt.val⟩) := by
      have hs' : (dblO obj).eopsSet = true := hset
      unfold getCurrentEop
      simp only [hs', hidx, hf, hl]
      simp only [dblO, dblT, colGet_map, e1, e2, e3, e4, e5, osimp, Except.map, f1, f2, f3, f4]
      rfl
    refine ⟨_, _, g, G, ?_, ?_, line b3 c3 (by norm_num), rfl, b5.trans (by norm_num)⟩
    · exact (Bc.div h (line b1 c1) (ha.sim (by norm_num)) ha1).sim (by norm_num)
    · exact (Bc.div h (line b2 c2) (ha.sim (by norm_num)) ha1).sim (by norm_num)

/-- the date of a time stamp, its MJD and the parameters, in both arithmetics -/
theorem stamp_dbl (h : Rounds53 r) (t : Int) (h0 : 0 ≤ t) (h1 : t < 4102444800000000)
    (hdec : ¬((utcDate t).month = 12 ∧ (utcDate t).day = 31)) :
    ∃ (v : List (Rnd r)) (V : List (Dbl r)) (u : Rnd r) (U : Dbl r), unixTimestampToDateVec t [] = .ok (true, v) ∧ unixTimestampToDateVec t [] = .ok (true, V) ∧
      v.length = 6 ∧ V.length = 6 ∧ convertDatevec2Mjd v (Flt.lit 0) = .ok (true, u) ∧ convertDatevec2Mjd V (Flt.lit 0) = .ok (true, U) ∧ Bc U u 17 := by
  have near : Near t := ⟨by omega, by omega⟩
  have hq : Int.tdiv t 1000000 = t / 1000000 := Int.tdiv_eq_ediv_of_nonneg h0
  obtain ⟨u, hu, hu1, -⟩ := mjd_core h t h0 near hdec (Flt.lit 0)
  have e : t / 1000000 / 86400 = t / dayMicros := by simp only [dayMicros]; omega
  have q0 : 0 ≤ t / 1000000 := by omega
  obtain ⟨hh, mm, ss, a, b, c, d, g⟩ := (dateVec_nonneg (α := Rnd r) (t / 1000000) q0 []).1 (by rw [e]; exact hdec)
  obtain ⟨hh', mm', ss', a', b', c', d', g'⟩ := (dateVec_nonneg (α := Dbl r) (t / 1000000) q0 []).1 (by rw [e]; exact hdec)
  obtain rfl : hh' = hh := by omega
  obtain rfl : mm' = mm := by omega
  obtain rfl : ss' = ss := by omega
  rw [e] at g g'
  change dateVecOfSec (t / 1000000) [] = .ok (true, [Flt.ofInt (utcDate t).year, Flt.ofInt (utcDate t).month, Flt.ofInt (utcDate t).day, Flt.ofInt hh', Flt.ofInt mm', Flt.ofInt ss']) at g
  change dateVecOfSec (t / 1000000) [] = .ok (true, [Flt.ofInt (utcDate t).year, Flt.ofInt (utcDate t).month, Flt.ofInt (utcDate t).day, Flt.ofInt hh', Flt.ofInt mm', Flt.ofInt ss']) at g'
  have hv := utc_valid (t / dayMicros).toNat
  have hz : mjdZ (utcDate t) = 40587 + (t / dayMicros).toNat := hv.2
  have hm : 1 ≤ (utcDate t).month ∧ (utcDate t).month ≤ 12 := hv.1.month
  have hd : 1 ≤ (utcDate t).day := hv.1.day.1
  have hd2 : (utcDate t).day ≤ 31 := hv.1.day.2.trans (monthLen_le _ _)
  have hy : -10 ^ 6 ≤ (utcDate t).year ∧ (utcDate t).year ≤ 10 ^ 6 := by
    simp only [mjdZ, dayMicros] at hz
    split_ifs at hz <;> constructor <;> omega
  have bc : ∀ n : ℤ, -10 ^ 6 ≤ n ∧ n ≤ 10 ^ 6 → Bc (Flt.ofInt n : Dbl r) (Flt.ofInt n : Rnd r) 31 := fun n hn => Bc.ofInt h n 31 (by rw [abs_le]; constructor <;> omega)
  obtain ⟨ok, u', U, k1, k2, k3⟩ := convert_dbl h (bc _ hy) (bc (utcDate t).month (by omega)) (bc (utcDate t).day (by omega)) (bc hh' (by omega)) (bc mm' (by omega)) (bc ss' (by omega))
  have w1 : (unixTimestampToDateVec t [] : Out (Bool × List (Rnd r))) = .ok (true, [Flt.ofInt (utcDate t).year, Flt.ofInt (utcDate t).month, Flt.ofInt (utcDate t).day, Flt.ofInt hh', Flt.ofInt mm', Flt.ofInt ss']) := by
    simp only [unixTimestampToDateVec, C05_seconds_exact h t near, hq, g]
  have w2 : (unixTimestampToDateVec t [] : Out (Bool × List (Dbl r))) = .ok (true, [Flt.ofInt (utcDate t).year, Flt.ofInt (utcDate t).month, Flt.ofInt (utcDate t).day, Flt.ofInt hh', Flt.ofInt mm', Flt.ofInt ss']) := by
    simp only [unixTimestampToDateVec, seconds_dbl h t near, hq, g']
  unfold mjdOf at hu
  rw [w1] at hu
  simp only [osimp] at hu
  rw [k1] at hu
  obtain ⟨rfl, rfl⟩ := Prod.mk.inj (Except.ok.inj hu)
  refine ⟨_, _, u', U, w1, w2, rfl, rfl, k1, k2, fun _ => ⟨k3, ?_⟩⟩
  have q1 : t / 1000000 < 4102444800 := by omega
  have q0' : (0 : ℝ) ≤ ((t / 1000000 : Int) : ℝ) := by exact_mod_cast q0
  have q1' : ((t / 1000000 : Int) : ℝ) ≤ 4102444800 := by exact_mod_cast q1.le
  rw [abs_le] at hu1 ⊢
  norm_num at hu1 ⊢
  constructor <;> linarith [hu1.1, hu1.2]

/-- `unixTimestampToDateVec` followed by `computeREcef2J2k` -/
def frameBackAt {α : Type} [Add α] [Sub α] [Mul α] [Div α] [Neg α] [Flt α] (obj : Obj α) (t : Int) (f : List Char) (R0 : M3 α) : Out (Bool × M3 α × Obj α) :=
  unixTimestampToDateVec t [] >>= fun w => computeREcef2J2k obj w.2 f R0

/-- C157: in doubles, with a table of finite values of the usual size, from 1970 to 2099 and not on a 31 December: if the day of the time stamp is in the table, both
matrices are computed, whatever the output held; all entries are finite; they are the values `M` of rounded arithmetic without overflow; `M` is a rotation up to
5.2·10⁻¹⁴; and it takes every position to within 1.3·10⁻⁹ of its length (plus 7.3·10⁻¹¹ for each microsecond past the last whole second) of where the IAU orientation
takes it at the time stamp. The other matrix is the transpose. -/
theorem C157_frames (h : Rounds53 r) (obj : Obj (Rnd r)) (hR : obj.eops.Rect) (hU : UsualTable (valT obj.eops)) (hset : obj.eopsSet = true) (t : Int) (h0 : 0 ≤ t) (h1 : t < 4102444800000000)
    (hdec : ¬((utcDate t).month = 12 ∧ (utcDate t).day = 31)) (hday : ((40587 + t / 86400000000 : Int) : ℝ) ∈ (valT obj.eops).mjd) (f : List Char) (R0 : M3 (Dbl r)) :
    ∃ M : M3 (Rnd r), frameAt (dblO obj) t f R0 = .ok (true, dblM M, dblO obj) ∧ frameBackAt (dblO obj) t f R0 = .ok (true, dblM Mᵀ, dblO obj) ∧
      NearlyRot M (230 / 2 ^ 52) ∧ ∃ pre post, RowsOf (valT obj.eops) (40587 + t / 86400000000) pre post ∧
        ∀ x, len3 (valM M *ᵥ x - orientation (40587 + (t : ℝ) / 86400000000) (eopAt (40587 + (t : ℝ) / 86400000000) pre post) *ᵥ x)
          ≤ (7.3e-11 * ((t % 1000000 : Int) : ℝ) + 1.3e-9) * len3 x := by
  obtain ⟨M, hM⟩ := C119_succeeds h obj hR hset t h0 h1 hdec hday f (fun _ _ => Flt.lit 0)
  obtain ⟨v, V, u, U, w1, w2, l1, l2, k1, k2, k3⟩ := stamp_dbl h t h0 h1 hdec
  have acc := C119_orientation_partial h obj obj hR hU t h0 h1 hdec f _ M hM
  have hM' := hM
  unfold frameAt at hM'
  rw [w1] at hM'
  simp only [osimp] at hM'
  have rot := (C117_orthogonal h obj obj v f (Flt.lit 0) (Flt.lit 0) (fun _ _ => Flt.lit 0) M).1 hM'
  unfold computeRJ2k2Ecef at hM'
  simp only [l1, k1, osimp, ne_eq, not_true_eq_false, if_false, Bool.not_true, Bool.false_eq_true] at hM'
  rcases eop_dbl h obj hR hU k3 with ⟨n1, -⟩ | ⟨e, E, g1, g2, s1, s2, s3, s4⟩
  · simp [n1, osimp] at hM'
  · simp only [g1, osimp, Except.ok.injEq, Prod.mk.injEq, true_and, and_true] at hM'
    have J := j2k_dbl h k3 s1 s2 s3 s4
    rw [hM'] at J
    refine ⟨M, ?_, ?_, rot, acc⟩
    · simp [frameAt, w2, osimp, computeRJ2k2Ecef, l2, k2, g2, J]
    · simp [frameBackAt, w2, osimp, computeREcef2J2k, l2, k2, g2, J]
      rfl

/-- C157: a day that is not in the table, and an object without a table: false, and nothing is written. -/
theorem C157_refused (h : Rounds53 r) (obj : Obj (Rnd r)) (hR : obj.eops.Rect) (hU : UsualTable (valT obj.eops)) (t : Int) (h0 : 0 ≤ t) (h1 : t < 4102444800000000)
    (hdec : ¬((utcDate t).month = 12 ∧ (utcDate t).day = 31)) (hday : obj.eopsSet = false ∨ ((40587 + t / 86400000000 : Int) : ℝ) ∉ (valT obj.eops).mjd) (f : List Char) (R0 : M3 (Dbl r)) :
    frameAt (dblO obj) t f R0 = .ok (false, R0, dblO obj) ∧ frameBackAt (dblO obj) t f R0 = .ok (false, R0, dblO obj) := by
  obtain ⟨v, V, u, U, w1, w2, l1, l2, k1, k2, k3⟩ := stamp_dbl h t h0 h1 hdec
  have hn : getCurrentEop (dblO obj) U = .ok none := by
    rcases hday with hs | hday
    · simp [getCurrentEop, dblO, hs]
    rcases eop_dbl h obj hR hU k3 with ⟨-, n2⟩ | ⟨e, E, g1, -⟩
    · exact n2
    exfalso
    obtain ⟨pre, post, ⟨i, ri, -, rd, -⟩, -⟩ := eop_rnd obj hR u e g1
    obtain ⟨u', hu, -, hu2⟩ := mjd_core h t h0 ⟨by omega, by omega⟩ hdec (Flt.lit 0)
    unfold mjdOf at hu
    rw [w1] at hu
    simp only [osimp] at hu
    rw [k1] at hu
    obtain ⟨-, rfl⟩ := Prod.mk.inj (Except.ok.inj hu)
    refine hday ?_
    have := List.mem_of_getElem? ri.1
    rw [rd, hu2] at this
    convert this using 3
    omega
  constructor
  · simp [frameAt, w2, osimp, computeRJ2k2Ecef, l2, k2, hn]
  · simp [frameBackAt, w2, osimp, computeREcef2J2k, l2, k2, hn]

/-- non-vacuity of C157: half a second after midnight of 1 March 1970, rounding to nearest, a table with that day and not the next -/
example : ∃ obj : Obj (Rnd nearest), obj.eops.Rect ∧ UsualTable (valT obj.eops) ∧ obj.eopsSet = true ∧ ¬((utcDate 5097600500000).month = 12 ∧ (utcDate 5097600500000).day = 31) ∧
    ((40587 + 5097600500000 / 86400000000 : Int) : ℝ) ∈ (valT obj.eops).mjd ∧ ¬((utcDate 5184000500000).month = 12 ∧ (utcDate 5184000500000).day = 31) ∧
    ((40587 + 5184000500000 / 86400000000 : Int) : ℝ) ∉ (valT obj.eops).mjd := by
  refine ⟨⟨true, ⟨[whole 40646], [⟨0.04⟩], [⟨0.38⟩], [⟨0.355⟩], [⟨0.001⟩], [⟨8⟩]⟩⟩, by simp [Eops.Rect], ?_, rfl, by decide +kernel, by simp [valT, whole_val], by decide +kernel,
    by simp [valT, whole_val]⟩
  rintro i row ⟨-, a, b, c, -, d⟩
  cases i with
  | zero =>
    simp [valT] at a b c d
    rw [← a, ← b, ← c, ← d]
    norm_num [abs_of_pos]
  | succ i => simp [valT] at a

end NavFuse.Props
