import Verif.Model.Eop
import Verif.Spec.Csv
import Mathlib.Tactic.SplitIfs
import Mathlib.Tactic.Linarith

/-! Lemmas about reading the EOP file. -/

namespace NavFuse
open Spec Rotations

variable {α : Type}

theorem getlines_piece (d : Char) (f rest : List Char) (h : d ∉ f) : getlines d (f ++ d :: rest) = f :: getlines d rest := by
  induction f with
  | nil => simp [getlines]
  | cons c cs ih =>
    have hc : c ≠ d := fun e => h (by simp [e])
    have := ih (fun hm => h (by simp [hm]))
    simp [getlines, hc, this]

theorem getlines_last (d : Char) (f : List Char) (h : d ∉ f) (hf : f ≠ []) : getlines d f = [f] := by
  induction f with
  | nil => exact absurd rfl hf
  | cons c cs ih =>
    have hc : c ≠ d := fun e => h (by simp [e])
    cases cs with
    | nil => simp [getlines, hc]
    | cons c' cs' =>
      have := ih (fun hm => h (by simp [hm])) (by simp)
      rw [getlines, if_neg hc, this]

theorem getlines_end (d : Char) (fs : List (List Char)) (h : ∀ f ∈ fs, d ∉ f) (hne : fs ≠ []) :
    getlines d (joinWith d fs ++ [d]) = fs := by
  induction fs with
  | nil => exact absurd rfl hne
  | cons f fs ih =>
    cases fs with
    | nil =>
      have := getlines_piece d f [] (h f (by simp))
      simpa [joinWith, getlines] using this
    | cons g gs =>
      rw [joinWith, List.append_assoc, List.cons_append, getlines_piece d f _ (h f (by simp)), ih (fun x hx => h x (by simp [hx])) (by simp)]

theorem getlines_join (d : Char) (fs : List (List Char)) (h : ∀ f ∈ fs, d ∉ f) :
    getlines d (joinWith d fs) = if fs.getLast? = some [] then fs.dropLast else fs := by
  induction fs with
  | nil => simp [joinWith, getlines]
  | cons f fs ih =>
    cases fs with
    | nil =>
      by_cases hf : f = []
      · simp [hf, joinWith, getlines]
      · simp [hf, joinWith, getlines_last d f (h f (by simp)) hf]
    | cons g gs =>
      rw [joinWith, getlines_piece d f _ (h f (by simp)), ih (fun x hx => h x (by simp [hx]))]
      simp only [List.getLast?_cons_cons, List.dropLast_cons_cons]
      split <;> rfl

theorem pushFields_rest (stod : List Char → Option α) (t : Eops α) (k : Nat) (hk : 11 ≤ k) (fs : List (List Char)) :
    pushFields stod t k fs = .ok t := by
  induction fs generalizing k with
  | nil => rfl
  | cons f fs ih =>
    have : pushField stod t k f = .ok t := by
      unfold pushField
      rw [if_neg (by omega), if_neg (by omega), if_neg (by omega), if_neg (by omega), if_neg (by omega), if_neg (by omega)]
    rw [pushFields, this]
    exact ih (k + 1) (by omega)

/-- append one row to a table -/
def Rotations.Eops.push (t : Eops α) (r : EopRow α) : Eops α :=
  ⟨t.mjd ++ [r.mjd], t.xPole ++ [r.xPole], t.yPole ++ [r.yPole], t.ut1Utc ++ [r.ut1Utc], t.lod ++ [r.lod], t.taiUtc ++ [r.taiUtc]⟩

theorem pushFields_row (stod : List Char → Option α) (t : Eops α) (F : List (List Char)) (r : EopRow α) (h11 : 11 ≤ F.length)
    (h1 : F[1]?.bind stod = some r.mjd) (h2 : F[2]?.bind stod = some r.xPole) (h3 : F[3]?.bind stod = some r.yPole)
    (h4 : F[4]?.bind stod = some r.ut1Utc) (h5 : F[5]?.bind stod = some r.lod) (h10 : F[10]?.bind stod = some r.taiUtc) :
    pushFields stod t 0 F = .ok (t.push r) := by
  match F, h11 with
  | f0 :: f1 :: f2 :: f3 :: f4 :: f5 :: f6 :: f7 :: f8 :: f9 :: f10 :: fs, _ =>
    simp at h1 h2 h3 h4 h5 h10
    simp [pushFields, pushField, h1, h2, h3, h4, h5, h10, osimp, pushFields_rest, Rotations.Eops.push]

/-- a data line, as the reader splits it -/
theorem pushFields_line (stod : List Char → Option α) (hempty : stod [] = none) (t : Eops α) (F : List (List Char)) (r : EopRow α)
    (h : DataLine stod F r) : pushFields stod t 0 (getlines ',' (joinWith ',' F)) = .ok (t.push r) := by
  rw [getlines_join ',' F (fun f hf => (h.clean f hf).1)]
  split_ifs with hl
  · have hlen : 12 ≤ F.length := by
      by_contra hlt
      have h11 : F.length = 11 := by have := h.cols; omega
      have : F[10]? = some [] := by
        rw [List.getLast?_eq_getElem?, h11] at hl; exact hl
      have h10 := h.taiUtc
      rw [this] at h10
      simp [hempty] at h10
    have get : ∀ i, i < 11 → F.dropLast[i]? = F[i]? := by
      intro i hi
      rw [List.getElem?_dropLast, if_pos (by omega)]
    apply pushFields_row
    · rw [List.length_dropLast]; omega
    all_goals (rw [get _ (by norm_num)])
    · exact h.mjd
    · exact h.xPole
    · exact h.yPole
    · exact h.ut1Utc
    · exact h.lod
    · exact h.taiUtc
  · exact pushFields_row stod t F r h.cols h.mjd h.xPole h.yPole h.ut1Utc h.lod h.taiUtc

/-- a table extended by rows -/
def Rotations.Eops.pushAll (t : Eops α) (rs : List (EopRow α)) : Eops α :=
  ⟨t.mjd ++ rs.map (·.mjd), t.xPole ++ rs.map (·.xPole), t.yPole ++ rs.map (·.yPole), t.ut1Utc ++ rs.map (·.ut1Utc),
    t.lod ++ rs.map (·.lod), t.taiUtc ++ rs.map (·.taiUtc)⟩

theorem readRows_lines (stod : List Char → Option α) (hempty : stod [] = none) (rows : List (List (List Char) × EopRow α))
    (h : ∀ p ∈ rows, DataLine stod p.1 p.2) (t : Eops α) :
    readRows stod t (rows.map fun p => joinWith ',' p.1) = .ok (t.pushAll (rows.map (·.2))) := by
  induction rows generalizing t with
  | nil => simp [readRows, Rotations.Eops.pushAll]
  | cons p ps ih =>
    rw [List.map_cons, readRows, pushFields_line stod hempty t p.1 p.2 (h p (by simp))]
    simp only [osimp]
    rw [ih (fun q hq => h q (by simp [hq]))]
    simp [Rotations.Eops.pushAll, Rotations.Eops.push]

theorem clean_join (F : List (List Char)) (h : ∀ f ∈ F, '\n' ∉ f) : '\n' ∉ joinWith ',' F := by
  induction F with
  | nil => simp [joinWith]
  | cons f fs ih =>
    cases fs with
    | nil => simpa [joinWith] using h f (by simp)
    | cons g gs =>
      have h1 := h f (by simp)
      have h2 := ih (fun x hx => h x (by simp [hx]))
      simp only [joinWith, List.mem_append, List.mem_cons, not_or]
      exact ⟨h1, by decide, h2⟩

theorem join_ne_nil (F : List (List Char)) (h : 2 ≤ F.length) : joinWith ',' F ≠ [] := by
  match F, h with
  | f :: g :: fs, _ => simp [joinWith]

/-- reading the columns: either every numeric column present parses, or the row throws -/
theorem pushField_cases (stod : List Char → Option α) (t : Eops α) (k : Nat) (f : List Char) :
    (k ∈ [1, 2, 3, 4, 5, 10] ∧ stod f = none ∧ pushField stod t k f = .error .throws) ∨
    (¬(k ∈ [1, 2, 3, 4, 5, 10] ∧ stod f = none) ∧ ∃ t', pushField stod t k f = .ok t') := by
  unfold pushField
  cases h : stod f with
  | none =>
    by_cases hk : k ∈ [1, 2, 3, 4, 5, 10]
    · left
      refine ⟨hk, rfl, ?_⟩
      simp only [List.mem_cons, List.not_mem_nil, or_false] at hk
      rcases hk with rfl | rfl | rfl | rfl | rfl | rfl <;> simp [osimp]
    · right
      simp only [List.mem_cons, List.not_mem_nil, or_false, not_or] at hk
      simp [hk]
  | some x =>
    right
    refine ⟨by simp, ?_⟩
    split_ifs <;> simp [osimp]

theorem pushFields_cases (stod : List Char → Option α) (t : Eops α) (k : Nat) (fs : List (List Char)) :
    ((∃ i f, fs[i]? = some f ∧ k + i ∈ [1, 2, 3, 4, 5, 10] ∧ stod f = none) ∧ pushFields stod t k fs = .error .throws) ∨
    ((¬ ∃ i f, fs[i]? = some f ∧ k + i ∈ [1, 2, 3, 4, 5, 10] ∧ stod f = none) ∧ ∃ t', pushFields stod t k fs = .ok t') := by
  induction fs generalizing t k with
  | nil => right; simp [pushFields]
  | cons f fs ih =>
    rcases pushField_cases stod t k f with ⟨h1, h2, h3⟩ | ⟨h1, t', h3⟩
    · left
      exact ⟨⟨0, f, by simp, by simpa using h1, h2⟩, by rw [pushFields, h3]; rfl⟩
    · rw [pushFields, h3]
      simp only [osimp]
      rcases ih t' (k + 1) with ⟨⟨i, g, a, b, c⟩, d⟩ | ⟨a, b⟩
      · left
        exact ⟨⟨i + 1, g, by simpa using a, by rw [show k + (i + 1) = k + 1 + i by omega]; exact b, c⟩, d⟩
      · right
        refine ⟨?_, b⟩
        rintro ⟨i, g, x, y, z⟩
        cases i with
        | zero =>
          simp only [List.getElem?_cons_zero, Option.some.injEq] at x
          subst x
          exact h1 ⟨by simpa using y, z⟩
        | succ i => exact a ⟨i, g, by simpa using x, by rw [show k + 1 + i = k + (i + 1) by omega]; exact y, z⟩

/-- the unparsable numeric fields of a line -/
def BadLine (stod : List Char → Option α) (line : List Char) : Prop :=
  ∃ i f, (getlines ',' line)[i]? = some f ∧ i ∈ [1, 2, 3, 4, 5, 10] ∧ stod f = none

theorem readRows_cases (stod : List Char → Option α) (t : Eops α) (lines : List (List Char)) :
    ((∃ l ∈ lines, BadLine stod l) ∧ readRows stod t lines = .error .throws) ∨
    ((¬ ∃ l ∈ lines, BadLine stod l) ∧ ∃ t', readRows stod t lines = .ok t') := by
  induction lines generalizing t with
  | nil => right; simp [readRows]
  | cons l ls ih =>
    rw [readRows]
    rcases pushFields_cases stod t 0 (getlines ',' l) with ⟨⟨i, f, a, b, c⟩, d⟩ | ⟨a, t', b⟩
    · left
      exact ⟨⟨l, by simp, i, f, a, by simpa using b, c⟩, by rw [d]; rfl⟩
    · rw [b]
      simp only [osimp]
      rcases ih t' with ⟨⟨l', x, y⟩, z⟩ | ⟨x, y⟩
      · left; exact ⟨⟨l', by simp [x], y⟩, z⟩
      · right
        refine ⟨?_, y⟩
        rintro ⟨l', hl, i, f, p, q, r⟩
        rcases List.mem_cons.1 hl with rfl | hl
        · exact a ⟨i, f, p, by simpa using q, r⟩
        · exact x ⟨l', hl, i, f, p, q, r⟩

/-- all columns of a table have the same length -/
def Rotations.Eops.Rect (t : Eops α) : Prop :=
  t.xPole.length = t.mjd.length ∧ t.yPole.length = t.mjd.length ∧ t.ut1Utc.length = t.mjd.length ∧ t.lod.length = t.mjd.length ∧
    t.taiUtc.length = t.mjd.length

theorem pushFields_full (stod : List Char → Option α) (t t' : Eops α) (F : List (List Char)) (h11 : 11 ≤ F.length)
    (h : pushFields stod t 0 F = .ok t') : ∃ r, t' = t.push r := by
  match F, h11 with
  | f0 :: f1 :: f2 :: f3 :: f4 :: f5 :: f6 :: f7 :: f8 :: f9 :: f10 :: fs, _ =>
    rcases pushFields_cases stod t 0 (f0 :: f1 :: f2 :: f3 :: f4 :: f5 :: f6 :: f7 :: f8 :: f9 :: f10 :: fs) with ⟨-, e⟩ | ⟨a, -⟩
    · rw [e] at h; cases h
    · have get : ∀ i f, (f0 :: f1 :: f2 :: f3 :: f4 :: f5 :: f6 :: f7 :: f8 :: f9 :: f10 :: fs)[i]? = some f → i ∈ [1, 2, 3, 4, 5, 10] →
          ∃ x, stod f = some x := by
        intro i f hf hi
        cases hs : stod f with
        | some x => exact ⟨x, rfl⟩
        | none => exact absurd ⟨i, f, hf, by simpa using hi, hs⟩ a
      obtain ⟨x1, e1⟩ := get 1 f1 rfl (by simp)
      obtain ⟨x2, e2⟩ := get 2 f2 rfl (by simp)
      obtain ⟨x3, e3⟩ := get 3 f3 rfl (by simp)
      obtain ⟨x4, e4⟩ := get 4 f4 rfl (by simp)
      obtain ⟨x5, e5⟩ := get 5 f5 rfl (by simp)
      obtain ⟨x10, e10⟩ := get 10 f10 rfl (by simp)
      have := pushFields_row stod t (f0 :: f1 :: f2 :: f3 :: f4 :: f5 :: f6 :: f7 :: f8 :: f9 :: f10 :: fs) ⟨x1, x2, x3, x4, x5, x10⟩
        (by simp) (by simp [e1]) (by simp [e2]) (by simp [e3]) (by simp [e4]) (by simp [e5]) (by simp [e10])
      rw [this] at h
      exact ⟨_, (Except.ok.inj h).symm⟩

theorem readRows_rect (stod : List Char → Option α) (lines : List (List Char))
    (hl : ∀ l ∈ lines, (getlines ',' l).length < 2 ∨ 11 ≤ (getlines ',' l).length) (t t' : Eops α) (ht : t.Rect)
    (h : readRows stod t lines = .ok t') : t'.Rect := by
  induction lines generalizing t with
  | nil => simp only [readRows, Except.ok.injEq] at h; exact h ▸ ht
  | cons l ls ih =>
    rw [readRows] at h
    cases hp : pushFields stod t 0 (getlines ',' l) with
    | error e => rw [hp] at h; cases h
    | ok t1 =>
      rw [hp] at h
      simp only [osimp] at h
      refine ih (fun x hx => hl x (by simp [hx])) t1 ?_ h
      rcases hl l (by simp) with h2 | h11
      · match hg : getlines ',' l, h2 with
        | [], _ => rw [hg] at hp; simp only [pushFields, Except.ok.injEq] at hp; exact hp ▸ ht
        | [f], _ =>
          rw [hg] at hp
          simp [pushFields, pushField, osimp] at hp
          exact hp ▸ ht
      · obtain ⟨r, rfl⟩ := pushFields_full stod t t1 _ h11 hp
        obtain ⟨a1, a2, a3, a4, a5⟩ := ht
        simp [Rotations.Eops.Rect, Rotations.Eops.push, a1, a2, a3, a4, a5]

/-- one field extends exactly the column of its number -/
theorem pushField_col (stod : List Char → Option α) (t t' : Eops α) (temp : Nat) (f : List Char) (h : pushField stod t temp f = .ok t') :
    t'.mjd = t.mjd ++ (if temp = 1 then (stod f).toList else []) ∧ t'.xPole = t.xPole ++ (if temp = 2 then (stod f).toList else []) ∧
    t'.yPole = t.yPole ++ (if temp = 3 then (stod f).toList else []) ∧ t'.ut1Utc = t.ut1Utc ++ (if temp = 4 then (stod f).toList else []) ∧
    t'.lod = t.lod ++ (if temp = 5 then (stod f).toList else []) ∧ t'.taiUtc = t.taiUtc ++ (if temp = 10 then (stod f).toList else []) := by
  unfold pushField at h
  cases hs : stod f with
  | none =>
    rw [hs] at h
    split_ifs at h <;> simp_all [osimp]
  | some x =>
    rw [hs] at h
    split_ifs at h <;> simp only [osimp, Except.ok.injEq] at h <;> subst h <;> simp_all

theorem pushFields_col (stod : List Char → Option α) (get : Eops α → List α) (k : Nat)
    (hg : ∀ t t' temp f, pushField stod t temp f = .ok t' → get t' = get t ++ (if temp = k then (stod f).toList else []))
    (fs : List (List Char)) (t t' : Eops α) (temp : Nat) (h : pushFields stod t temp fs = .ok t') :
    get t' = get t ++ (if temp ≤ k then (fs[k - temp]?.bind stod).toList else []) := by
  induction fs generalizing t temp with
  | nil => simp only [pushFields, Except.ok.injEq] at h; subst h; simp
  | cons f fs ih =>
    rw [pushFields] at h
    cases hp : pushField stod t temp f with
    | error e => rw [hp] at h; cases h
    | ok t1 =>
      rw [hp] at h
      simp only [osimp] at h
      rw [ih t1 (temp + 1) h, hg _ _ _ _ hp]
      rcases lt_trichotomy temp k with hk | hk | hk
      · obtain ⟨d, rfl⟩ := Nat.exists_eq_add_of_lt hk
        rw [if_neg (by omega), if_pos (by omega), if_pos (by omega), show temp + d + 1 - temp = d + 1 by omega,
          show temp + d + 1 - (temp + 1) = d by omega]
        simp
      · subst hk; simp
      · rw [if_neg (by omega), if_neg (by omega), if_neg (by omega)]; simp

theorem readRows_col (stod : List Char → Option α) (get : Eops α → List α) (k : Nat)
    (hg : ∀ t t' temp f, pushField stod t temp f = .ok t' → get t' = get t ++ (if temp = k then (stod f).toList else []))
    (lines : List (List Char)) (t t' : Eops α) (h : readRows stod t lines = .ok t') :
    get t' = get t ++ lines.filterMap fun l => (getlines ',' l)[k]?.bind stod := by
  induction lines generalizing t with
  | nil => simp only [readRows, Except.ok.injEq] at h; subst h; simp
  | cons l ls ih =>
    rw [readRows] at h
    cases hp : pushFields stod t 0 (getlines ',' l) with
    | error e => rw [hp] at h; cases h
    | ok t1 =>
      rw [hp] at h
      simp only [osimp] at h
      rw [ih t1 h, pushFields_col stod get k hg _ _ _ _ hp, List.filterMap_cons]
      cases (getlines ',' l)[k]?.bind stod <;> simp

/-- a successful load of a file open for reading and writing ran the row loop -/
theorem getEops_rows (stod : List Char → Option α) (text : List Char) (obj obj' : Obj α)
    (h : getEops stod ⟨true, some text⟩ obj = (some true, obj')) :
    obj'.eopsSet = true ∧ readRows stod ⟨[], [], [], [], [], []⟩ (getlines '\n' text).tail = .ok obj'.eops := by
  simp only [getEops, Option.getD_some, Bool.not_true, Bool.false_eq_true, if_false] at h
  cases hr : readRows stod ⟨[], [], [], [], [], []⟩ (getlines '\n' text).tail with
  | error e => rw [hr] at h; simp at h
  | ok t =>
    rw [hr] at h
    simp only [Prod.mk.injEq, true_and] at h
    subst h
    exact ⟨rfl, rfl⟩

end NavFuse
