import Verif.Props.StrapdownNav

/-! # C176, C177: what the attitude depends on, and samples that arrive late -/

namespace NavFuse.Props
open Matrix NavFuse.Spec NavFuse.Strapdown NavFuse.NavUtils NavFuse.XR

section generic
variable {α : Type} [Add α] [Sub α] [Mul α] [Div α] [Neg α] [Flt α]

/-- the part of a call that concerns the attitude: the Euler angles of an initialisation, the gyroscope sample of an integration -/
def Call.turning : Call α → V3 α ⊕ V3 α
  | .init _ _ rph _ => .inl rph
  | .integ _ dTh _ => .inr dTh

theorem integrate_attitude {s s' : St α} {dV dTh : V3 α} {t : Int} {b : Bool} (h : integrate s dV dTh t = .ok (b, s')) :
    ∃ R, s.RB2N = some R ∧ s'.RB2N = some (mmul R (attInc dTh)) := by
  cases hl : s.lla with
  | none => simp [integrate, keepPrev, rd, hl, osimp] at h
  | some lla =>
  cases hv : s.vNed with
  | none => simp [integrate, keepPrev, rd, hl, hv, osimp] at h
  | some v =>
  cases hR : s.RB2N with
  | none => simp [integrate, keepPrev, rd, hl, hv, hR, osimp] at h
  | some R =>
  cases ht : s.tov with
  | none => simp [integrate, keepPrev, rd, hl, hv, hR, ht, osimp] at h
  | some t0 =>
  by_cases hf : -2 ^ 63 ≤ t - t0 ∧ t - t0 < 2 ^ 63
  · rw [integrate_eval s lla v dV dTh R t0 t ⟨hl, hv, hR, ht⟩ hf] at h
    injection h with h
    injection h with _ h
    exact ⟨R, rfl, by rw [← h]⟩
  · have hs : sub64 t t0 = .error (.ub .overflow) := by rw [sub64, if_neg hf]
    simp only [integrate, keepPrev, rd, hl, hv, hR, ht, osimp, stamp, hs] at h
    cases h

theorem call_attitude {s s' u u' : St α} {c c' : Call α} {b b' : Bool} (h : s.RB2N = s'.RB2N) (hc : c.turning = c'.turning)
    (e : call s c = .ok (b, u)) (e' : call s' c' = .ok (b', u')) : u.RB2N = u'.RB2N := by
  cases c with
  | init lla v rph t =>
    cases c' with
    | init lla' v' rph' t' =>
      injection hc with hc
      subst hc
      rw [call, init_eval] at e e'
      injection e with e; injection e with _ e
      injection e' with e'; injection e' with _ e'
      rw [← e, ← e']
    | integ => cases hc
  | integ dV dTh t =>
    cases c' with
    | init => cases hc
    | integ dV' dTh' t' =>
      injection hc with hc
      subst hc
      obtain ⟨R, h1, h2⟩ := integrate_attitude e
      obtain ⟨R', h1', h2'⟩ := integrate_attitude e'
      rw [h1, h1'] at h
      injection h with h
      rw [h2, h2', h]

/-- C176: two navigators that are turned alike report the same attitude, to the last bit. Initialise two objects in any states with the same Euler angles at any two
positions, velocities and times, and feed them the same gyroscope samples with any two sequences of accelerometer samples and time stamps: the attitudes are equal. -/
theorem C176_attitude_from_gyroscopes_only (s s' u u' : St α) (lla lla' v v' rph : V3 α) (t t' : Int) (cs cs' : List (Call α)) (bs bs' : List Bool)
    (hc : cs.map Call.turning = cs'.map Call.turning) (e : run s (.init lla v rph t :: cs) = .ok (bs, u))
    (e' : run s' (.init lla' v' rph t' :: cs') = .ok (bs', u')) : u.RB2N = u'.RB2N := by
  have key : ∀ (cs cs' : List (Call α)) (s s' u u' : St α) (bs bs' : List Bool), s.RB2N = s'.RB2N → cs.map Call.turning = cs'.map Call.turning →
      run s cs = .ok (bs, u) → run s' cs' = .ok (bs', u') → u.RB2N = u'.RB2N := by
    intro cs
    induction cs with
    | nil =>
      intro cs' s s' u u' bs bs' h hc e e'
      cases cs' with
      | nil =>
        rw [run] at e e'
        injection e with e; injection e with _ e
        injection e' with e'; injection e' with _ e'
        rw [← e, ← e', h]
      | cons c' cs' => cases hc
    | cons c cs ih =>
      intro cs' s s' u u' bs bs' h hc e e'
      cases cs' with
      | nil => cases hc
      | cons c' cs' =>
        rw [List.map_cons, List.map_cons, List.cons.injEq] at hc
        rw [run] at e e'
        cases h1 : call s c with
        | error x => rw [h1] at e; cases e
        | ok r =>
        cases h1' : call s' c' with
        | error x => rw [h1'] at e'; cases e'
        | ok r' =>
        rw [h1, Out.ok_bind] at e
        rw [h1', Out.ok_bind] at e'
        cases h2 : run r.2 cs with
        | error x => rw [h2] at e; cases e
        | ok q =>
        cases h2' : run r'.2 cs' with
        | error x => rw [h2'] at e'; cases e'
        | ok q' =>
        rw [h2] at e
        rw [h2'] at e'
        injection e with e; injection e with _ e
        injection e' with e'; injection e' with _ e'
        rw [← e, ← e']
        exact ih cs' r.2 r'.2 q.2 q'.2 q.1 q'.1 (call_attitude h hc.1 h1 h1') hc.2 h2 h2'
  rw [run, call, init_eval, Out.ok_bind] at e e'
  cases h2 : run _ cs with
  | error x => rw [h2] at e; cases e
  | ok q =>
  cases h2' : run _ cs' with
  | error x => rw [h2'] at e'; cases e'
  | ok q' =>
  rw [h2] at e
  rw [h2'] at e'
  injection e with e; injection e with _ e
  injection e' with e'; injection e' with _ e'
  rw [← e, ← e']
  exact key cs cs' (Strapdown.init s lla v rph t).2 (Strapdown.init s' lla' v' rph t').2 q.2 q'.2 q.1 q'.1 rfl hc h2 h2'

/-- two histories that differ in everything but the turning meet the hypotheses of `C176_attitude_from_gyroscopes_only` -/
example (a b c d : V3 α) : ∃ bs bs' u u', run ({} : St α) [.init a b c 0, .integ a d 10, .integ b d 20] = .ok (bs, u)
    ∧ run ({} : St α) [.init b d c 5, .integ d d 30, .integ c d 31] = .ok (bs', u')
    ∧ ([.integ a d 10, .integ b d 20] : List (Call α)).map Call.turning = [.integ d d 30, .integ c d 31].map Call.turning := by
  obtain ⟨u, e⟩ := C52_initialized_always_succeeds ({} : St α) a b c 0 [.integ a d 10, .integ b d 20]
    (timesFit_of_nonneg _ _ (by norm_num) (by simp [Call.tov]))
  obtain ⟨u', e'⟩ := C52_initialized_always_succeeds ({} : St α) b d c 5 [.integ d d 30, .integ c d 31]
    (timesFit_of_nonneg _ _ (by norm_num) (by simp [Call.tov]))
  exact ⟨_, _, u, u', e, e', rfl⟩

/-- C177 is violated: a sample that is not newer than the state is integrated like any other. Whatever the initialised state and the sample, a time stamp
at or before the stored one is accepted with success, the stored time goes back to it and the attitude takes the turn once more. -/
theorem C177_late_sample_refused_fails (s : St α) (lla v dV dTh : V3 α) (R : M3 α) (t t' : Int)
    (h : s.lla = some lla ∧ s.vNed = some v ∧ s.RB2N = some R ∧ s.tov = some t) (hf : -2 ^ 63 ≤ t' - t) (ht : t' ≤ t) :
    ∃ s', integrate s dV dTh t' = .ok (true, s') ∧ s'.tov = some t' ∧ s'.RB2N = some (mmul R (attInc dTh)) :=
  ⟨_, integrate_eval s lla v dV dTh R t t' h ⟨hf, by linarith⟩, rfl, rfl⟩

/-- C177, the part that holds: a newer sample is accepted and the stored time advances. Missing: older ones are not told apart. -/
theorem C177_newer_sample_partial (s : St α) (lla v dV dTh : V3 α) (R : M3 α) (t t' : Int)
    (h : s.lla = some lla ∧ s.vNed = some v ∧ s.RB2N = some R ∧ s.tov = some t) (hf : t' - t < 2 ^ 63) (ht : t < t') :
    ∃ s' T, integrate s dV dTh t' = .ok (true, s') ∧ s'.tov = some T ∧ t < T :=
  ⟨_, t', integrate_eval s lla v dV dTh R t t' h ⟨by linarith, hf⟩, rfl, ht⟩

/-- an initialised object and stamps ten microseconds before and after meet the hypotheses of the C177 theorems -/
example (a b c : V3 α) : ∃ (s : St α) (R : M3 α), (s.lla = some a ∧ s.vNed = some b ∧ s.RB2N = some R ∧ s.tov = some 100)
    ∧ -2 ^ 63 ≤ (90 : Int) - 100 ∧ (90 : Int) ≤ 100 ∧ (110 : Int) - 100 < 2 ^ 63 ∧ (100 : Int) < 110 :=
  ⟨(Strapdown.init {} a b c 100).2, _, init_ready {} a b c 100, by norm_num, by norm_num, by norm_num, by norm_num⟩

end generic
end NavFuse.Props
