import Verif.Model.J2000
import Verif.Lemmas.Eop
import Verif.Props.Eop

/-! # C164: what a `Rotations` object knows after any history of loads -/

namespace NavFuse.Props
open NavFuse.Rotations

variable {α : Type}

/-- the object after the given loads, oldest first, started from `obj` -/
def afterLoads (stod : List Char → Option α) (obj : Obj α) : List FileView → Obj α
  | [] => obj
  | f :: fs => afterLoads stod (getEops stod f obj).2 fs

/-- a load of this file reports success, whatever the object -/
def Loads (stod : List Char → Option α) (f : FileView) : Prop := ∀ obj : Obj α, (getEops stod f obj).1 = some true

/-- the result of a load does not depend on the object; the object is replaced on success and kept otherwise -/
theorem load_cases (stod : List Char → Option α) (f : FileView) :
    (∃ t, ∀ obj : Obj α, getEops stod f obj = (some true, ⟨true, t⟩)) ∨
      (∃ r, r ≠ some true ∧ ∀ obj : Obj α, getEops stod f obj = (r, obj)) := by
  by_cases hr : f.readable = true
  · cases h : readRows stod ⟨[], [], [], [], [], []⟩ (getlines '\n' (f.readWrite.getD [])).tail with
    | ok t => exact .inl ⟨t, fun obj => by simp [getEops, hr, h]⟩
    | error e => exact .inr ⟨none, by simp, fun obj => by simp [getEops, hr, h]⟩
  · exact .inr ⟨some false, by simp, fun obj => by simp [getEops, hr]⟩

/-- C164: an object on which no load has succeeded is exactly as constructed: its flag is not set. -/
theorem C164_never (stod : List Char → Option α) (fs : List FileView) (h : ∀ f ∈ fs, ¬ Loads stod f) :
    afterLoads stod (Obj.fresh : Obj α) fs = Obj.fresh ∧ (afterLoads stod (Obj.fresh : Obj α) fs).eopsSet = false := by
  have : ∀ obj : Obj α, afterLoads stod obj fs = obj := by
    induction fs with
    | nil => intro obj; rfl
    | cons f fs ih =>
      intro obj
      rcases load_cases stod f with ⟨t, ht⟩ | ⟨r, _, hr⟩
      · exact absurd (fun o => by rw [ht o]) (h f (by simp))
      · rw [afterLoads, hr obj]; exact ih (fun g hg => h g (by simp [hg])) obj
  rw [this]
  exact ⟨rfl, rfl⟩

/-- C164: after a history whose last successful load was of `f`, the object is the one obtained by loading `f` alone into a new object: nothing
of earlier tables remains, and the later, failed loads have changed nothing. -/
theorem C164_last (stod : List Char → Option α) (before after : List FileView) (f : FileView) (hf : Loads stod f)
    (h : ∀ g ∈ after, ¬ Loads stod g) (obj : Obj α) :
    afterLoads stod obj (before ++ f :: after) = (getEops stod f Obj.fresh).2 ∧
      (afterLoads stod obj (before ++ f :: after)).eopsSet = true := by
  have hk : ∀ obj : Obj α, afterLoads stod obj after = obj := by
    clear hf
    induction after with
    | nil => intro obj; rfl
    | cons g gs ih =>
      intro obj
      rcases load_cases stod g with ⟨t, ht⟩ | ⟨r, _, hr⟩
      · exact absurd (fun o => by rw [ht o]) (h g (by simp))
      · rw [afterLoads, hr obj]; exact ih (fun g hg => h g (by simp [hg])) obj
  rcases load_cases stod f with ⟨t, ht⟩ | ⟨r, hr, hr'⟩
  · have : ∀ obj : Obj α, afterLoads stod obj (before ++ f :: after) = ⟨true, t⟩ := by
      induction before with
      | nil => intro obj; rw [List.nil_append, afterLoads, ht obj]; exact hk _
      | cons g gs ih => intro obj; exact ih _
    rw [this, ht]
    exact ⟨rfl, rfl⟩
  · have := hf Obj.fresh
    rw [hr' Obj.fresh] at this
    exact absurd this hr

/-- C164: the flag says exactly whether some load of the history has succeeded. -/
theorem C164_flag (stod : List Char → Option α) (fs : List FileView) :
    (afterLoads stod (Obj.fresh : Obj α) fs).eopsSet = true ↔ ∃ f ∈ fs, Loads stod f := by
  constructor
  · intro h
    by_contra hn
    push Not at hn
    rw [(C164_never stod fs hn).2] at h
    exact absurd h (by simp)
  · rintro ⟨f, hf, hl⟩
    have key : ∀ (fs : List FileView) (obj : Obj α), obj.eopsSet = true ∨ (∃ f ∈ fs, Loads stod f) →
        (afterLoads stod obj fs).eopsSet = true := by
      intro fs
      induction fs with
      | nil => intro obj h; rcases h with h | ⟨f, hf, _⟩; exacts [h, absurd hf (by simp)]
      | cons g gs ih =>
        intro obj h
        refine ih _ ?_
        rcases load_cases stod g with ⟨t, ht⟩ | ⟨r, hr, hr'⟩
        · left; rw [ht obj]
        · rw [hr' obj]
          rcases h with h | ⟨f, hf, hl⟩
          · exact .inl h
          · rcases List.mem_cons.1 hf with rfl | hf
            · have := hl obj; rw [hr' obj] at this; exact absurd this hr
            · exact .inr ⟨f, hf, hl⟩
    exact key fs _ (.inr ⟨f, hf, hl⟩)

/-- non-vacuity: a file that loads, and two that do not -/
example : Loads digit ⟨true, some "h\nd,1,2,3,4,5,,,,,7".toList⟩ ∧ ¬ Loads digit ⟨true, some "h\nd,x".toList⟩ ∧ ¬ Loads digit ⟨false, none⟩ := by
  refine ⟨fun obj => ?_, fun h => absurd (h Obj.fresh) (by decide), fun h => absurd (h Obj.fresh) (by decide)⟩
  rcases load_cases digit ⟨true, some "h\nd,1,2,3,4,5,,,,,7".toList⟩ with ⟨t, ht⟩ | ⟨r, hr, hr'⟩
  · rw [ht]
  · have h1 : (getEops digit ⟨true, some "h\nd,1,2,3,4,5,,,,,7".toList⟩ Obj.fresh).1 = some true := by decide
    rw [hr'] at h1
    exact absurd h1 hr

section
variable [Add α] [Sub α] [Mul α] [Div α] [Flt α]

/-- C164: an object on which no load has succeeded refuses every query. -/
theorem C164_refuses (stod : List Char → Option α) (fs : List FileView) (h : ∀ f ∈ fs, ¬ Loads stod f) (mjd : α) :
    getCurrentEop (afterLoads stod (Obj.fresh : Obj α) fs) mjd = .ok none := by
  simp [getCurrentEop, (C164_never stod fs h).2]

end

variable [Add α] [Sub α] [Mul α] [Div α] [Neg α] [Flt α]

/-- a call of one of the two rotations between the inertial and the Earth frame -/
inductive Frame
  | toEcef
  | toJ2k

/-- the call of `computeRJ2k2Ecef` or `computeREcef2J2k` with this time stamp, file name and output matrix -/
def Frame.call (w : Frame) (obj : Obj α) (dv : List α) (name : List Char) (R : M3 α) : Out (Bool × M3 α × Obj α) :=
  match w with
  | .toEcef => computeRJ2k2Ecef obj dv name R
  | .toJ2k => computeREcef2J2k obj dv name R

/-- what happens to an object: loads and rotations in any order -/
inductive Use (α : Type)
  | load (f : FileView)
  | rotate (w : Frame) (dv : List α) (name : List Char) (R : M3 α)

/-- the files loaded in a history -/
def loadsOf : List (Use α) → List FileView
  | [] => []
  | .load f :: us => f :: loadsOf us
  | .rotate _ _ _ _ :: us => loadsOf us

/-- the object after a history of loads and rotations (an undefined call ends it) -/
def afterUses (stod : List Char → Option α) (obj : Obj α) : List (Use α) → Out (Obj α)
  | [] => .ok obj
  | .load f :: us => afterUses stod (getEops stod f obj).2 us
  | .rotate w dv name R :: us => do
    let r ← w.call obj dv name R
    afterUses stod r.2.2 us

/-- C164: a rotation never changes the object. -/
theorem C164_rotation_keeps (w : Frame) (obj : Obj α) (dv : List α) (name : List Char) (R : M3 α) (r : Bool × M3 α × Obj α)
    (h : w.call obj dv name R = .ok r) : r.2.2 = obj := by
  cases w <;>
  · simp only [Frame.call, computeRJ2k2Ecef, computeREcef2J2k] at h
    split at h
    · cases h; rfl
    · cases hc : convertDatevec2Mjd dv (Flt.lit 0 : α) with
      | error e => rw [hc] at h; cases h
      | ok m =>
        rw [hc] at h
        obtain ⟨ok, mjd⟩ := m
        cases ok with
        | false => cases h; rfl
        | true =>
          cases hg : getCurrentEop obj mjd with
          | error e => simp [osimp, hg] at h
          | ok e =>
            cases e with
            | none => simp [osimp, hg] at h; cases h; rfl
            | some e => simp [osimp, hg] at h; cases h; rfl

/-- C164: so a history of loads and rotations, in any order, leaves what its loads alone would leave. -/
theorem C164_history (stod : List Char → Option α) (us : List (Use α)) (obj obj' : Obj α) (h : afterUses stod obj us = .ok obj') :
    obj' = afterLoads stod obj (loadsOf us) := by
  induction us generalizing obj with
  | nil => cases h; rfl
  | cons u us ih =>
    cases u with
    | load f => exact ih _ h
    | rotate w dv name R =>
      cases hc : w.call obj dv name R with
      | error e => simp [afterUses, osimp, hc] at h
      | ok r =>
        simp only [afterUses, osimp, hc] at h
        rw [C164_rotation_keeps w obj dv name R r hc] at h
        exact ih _ h

/-- C164: in such a history without a successful load, a rotation reports failure and leaves its output alone. -/
theorem C164_rotation_refuses (stod : List Char → Option α) (us : List (Use α)) (obj : Obj α) (h : afterUses stod Obj.fresh us = .ok obj)
    (hn : ∀ f ∈ loadsOf us, ¬ Loads stod f) (w : Frame) (dv : List α) (name : List Char) (R : M3 α) (r : Bool × M3 α × Obj α)
    (hr : w.call obj dv name R = .ok r) : r.1 = false ∧ r.2.1 = R := by
  have hq : ∀ mjd, getCurrentEop obj mjd = .ok none := by
    intro mjd
    rw [C164_history stod us Obj.fresh obj h]
    exact C164_refuses stod _ hn mjd
  cases w <;>
  · simp only [Frame.call, computeRJ2k2Ecef, computeREcef2J2k] at hr
    split at hr
    · cases hr; exact ⟨rfl, rfl⟩
    · cases hc : convertDatevec2Mjd dv (Flt.lit 0 : α) with
      | error e => rw [hc] at hr; cases hr
      | ok m =>
        rw [hc] at hr
        obtain ⟨ok, mjd⟩ := m
        cases ok with
        | false => cases hr; exact ⟨rfl, rfl⟩
        | true =>
          simp [osimp, hq] at hr
          cases hr
          exact ⟨rfl, rfl⟩

/-- C164: in such a history whose last successful load was of `f`, a rotation does exactly what it does on a new object that has loaded `f` alone
(object included), whatever was loaded, asked or refused before. -/
theorem C164_rotation_answers (stod : List Char → Option α) (us : List (Use α)) (obj₀ obj : Obj α) (h : afterUses stod obj₀ us = .ok obj)
    (before after : List FileView) (f : FileView) (he : loadsOf us = before ++ f :: after) (hf : Loads stod f)
    (hn : ∀ g ∈ after, ¬ Loads stod g) (w : Frame) (dv : List α) (name : List Char) (R : M3 α) :
    w.call obj dv name R = w.call (getEops stod f Obj.fresh).2 dv name R := by
  rw [C164_history stod us obj₀ obj h, he, (C164_last stod before after f hf hn obj₀).1]

/-- non-vacuity: a history with a refused rotation between two loads -/
example (stod : List Char → Option α) (f g : FileView) (R : M3 α) :
    (∃ obj, afterUses stod Obj.fresh [.load f, .rotate .toEcef [] [] R, .load g] = .ok obj) ∧
      loadsOf [.load f, .rotate .toEcef ([] : List α) [] R, .load g] = [f, g] := by
  refine ⟨⟨_, rfl⟩, rfl⟩

end NavFuse.Props
