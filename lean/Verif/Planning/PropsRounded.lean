/-
Property C108: planning from requests to observations, in floating-point arithmetic.
-/
import Verif.Planning.Props
import Verif.Schedule.PropsRounded

namespace Celest.Planning.Rounded

open Celest.Schedule Celest.Windows Celest.Schedule.Rounded

variable {K : Type} [LinearOrder K] [Zero K] [OfNat K 90]

/-- The scheduler's handler after one call (scheduler.py 78-168), with rounding.  `generate_vtws` only selects sample
times, which are floats already, so it is the same as without rounding. -/
def step (fl : ℚ → ℚ) (m : Mission K) (h : Handler) : Call → Handler
  | .add x => (addRequest m h x).1
  | .generate a => (Schedule.Rounded.generate fl h a).2

/-- The scheduler's handler after any history of calls (scheduler.py 51-168), with rounding. -/
def run (fl : ℚ → ℚ) (m : Mission K) (calls : List Call) : Handler :=
  calls.foldl (step fl m) Handler.empty

/-! ### Specification -/

/-- A nanosecond, in days. -/
def nanosecond : ℚ := 1 / 10 ^ 9 / 86400

/-- The samples of every location are complete; their times are floats, between the Julian dates 0
and 3000000 (the year 3501), and more than a nanosecond apart. -/
def SoundFloats (m : Mission K) : Prop :=
  ∀ loc, (m.scene loc).WellFormed ∧
    (m.scene loc).julian.Pairwise (fun t t' => t + nanosecond ≤ t') ∧
    ∀ t ∈ (m.scene loc).julian, 0 ≤ t ∧ t ≤ 3000000 ∧ IsFloat (binaryRound 53) t

/-- The deadline is a float and the duration is one of 0 seconds to a day. -/
def Reasonable (x : Target) : Prop :=
  IsFloat (binaryRound 53) x.deadline ∧ 0 ≤ x.duration ∧ x.duration ≤ 86400

/-- An observation from `start` on is made when asked, as in `Planning.AsAsked`, but without a look
angle only within 0.2 milliseconds. -/
def AsAsked (sc : Scene K) (look : Option LookAngle) (duration : ℚ) (i j : ℕ) (tᵢ tⱼ start : ℚ) :
    Prop :=
  match look with
  | none => |start - (tᵢ + tⱼ + duration / 86400) / 2| ≤ 2 / 10 ^ 4 / 86400
  | some a => Planning.AsAsked sc (some a) duration i j tᵢ tⱼ start

/-- The observation `o` carries out the request `x`: it is of the requested location and duration,
it ends less than a nanosecond after the deadline, and the location is visible at every sample
during it; moreover, it lies between two samples `i` and `j`, but for a nanosecond, such that the
location is visible exactly at the samples after `i` up to and including `j`; if these are a minute
apart the quality of the observation in this pass is at most a ten-thousandth below the one
requested; and it is made when asked. -/
def CarriesOut (m : Mission K) (x : Target) (o : Observation) : Prop :=
  o.location = x.location ∧ o.duration = x.duration ∧
    o.start + o.duration / 86400 < x.deadline + nanosecond ∧
    (∀ (k : ℕ) (t : ℚ), (m.scene x.location).julian[k]? = some t → o.start ≤ t →
      t ≤ o.start + o.duration / 86400 → Visible (m.scene x.location) m.threshold x.lighting k) ∧
    ∃ (i j : ℕ) (tᵢ tⱼ : ℚ), (m.scene x.location).julian[i]? = some tᵢ ∧
      (m.scene x.location).julian[j]? = some tⱼ ∧ i < j ∧ tᵢ < o.start ∧
      o.start + o.duration / 86400 < tⱼ + nanosecond ∧
      (∀ k, i < k → k ≤ j → Visible (m.scene x.location) m.threshold x.lighting k) ∧
      ¬ Visible (m.scene x.location) m.threshold x.lighting i ∧
      ¬ Visible (m.scene x.location) m.threshold x.lighting (j + 1) ∧
      (1 / 1440 ≤ tⱼ - tᵢ → x.quality ≤ exactGrade tᵢ tⱼ o.start + 1 / 10 ^ 4) ∧
      AsAsked (m.scene x.location) x.lookAngle x.duration i j tᵢ tⱼ o.start

/-! ### Lemmas -/

theorem SoundFloats.sound {m : Mission K} (h : SoundFloats m) : m.Sound := fun loc =>
  ⟨(h loc).1, (h loc).2.1.imp fun hab => by unfold nanosecond at hab; linarith⟩

theorem foldl_operations (fl : ℚ → ℚ) (m : Mission K) (calls : List Call) (h : Handler) :
    calls.foldl (step fl m) h =
      (calls.filterMap (operation m)).foldl (Schedule.Rounded.step fl) h := by
  induction calls generalizing h with
  | nil => rfl
  | cons c calls ih =>
    rw [List.foldl_cons, ih]
    cases c with
    | generate a => rfl
    | add x =>
      cases hg : generateVtws (m.scene x.location) m.threshold x.lighting with
      | error e => simp only [List.filterMap_cons, operation, step, addRequest, hg]
      | ok vtws =>
        simp only [List.filterMap_cons, operation, step, addRequest, hg, List.foldl_cons,
          Schedule.Rounded.step]

/-- A history of calls is a history of operations on the handler. -/
theorem run_operations (fl : ℚ → ℚ) (m : Mission K) (calls : List Call) :
    run fl m calls = Schedule.Rounded.run fl (calls.filterMap (operation m)) :=
  foldl_operations fl m calls _

/-- The windows generated for a request rise and set at samples. -/
theorem windows_at_samples {sc : Scene K} (wf : sc.WellFormed) {threshold : K}
    {lighting : Lighting} {ws : List VTW} (h : generateVtws sc threshold lighting = .ok ws) {v : VTW}
    (hv : v ∈ ws) : v.rise ∈ sc.julian ∧ v.set ∈ sc.julian := by
  obtain ⟨runs, -, r2, -, r4⟩ := runs_of_ok _ wf _ _ ws h
  obtain ⟨⟨a, b⟩, hp, w1, w2, -, -⟩ := forall₂_mem_right r4 hv
  exact ⟨List.mem_of_getElem? w1, List.mem_of_getElem? w2⟩

theorem submittable_of {m : Mission K} (hm : SoundFloats m) {s : Submission} {x : Target}
    (hr : Reasonable x) (hx : MadeFrom m s x) : Submittable (binaryRound 53) 3000000 s := by
  obtain ⟨vtws, hg, rfl⟩ := hx
  refine ⟨hr.2.1, hr.1, fun v hv => ?_⟩
  obtain ⟨h1, h2⟩ := windows_at_samples (hm _).1 hg hv
  exact ⟨((hm _).2.2 _ h1).1, ((hm _).2.2 _ h2).2⟩

theorem carriesOut_of_serves {m : Mission K} (hm : SoundFloats m) {s : Submission} {x : Target}
    {o : Observation} (hr : Reasonable x) (hx : MadeFrom m s x)
    (hs : ServesUpTo (1 / 2 ^ 53) 3000000 s o) : CarriesOut m x o := by
  obtain ⟨vtws, hg, rfl⟩ := hx
  obtain ⟨h1, h2, v, hv, h3, h4, h5, h6, h7⟩ := hs
  obtain ⟨wf, hgap, -⟩ := hm x.location
  have hinc := (hm.sound x.location).2
  have hd := hr.2.2
  have hd0 := hr.2.1
  simp only [Target.submission, days] at h1 h2 h4 h5 h6 h7 hv
  rw [← h2] at h4 h5 hd hd0
  refine ⟨h1, h2, by unfold nanosecond; linarith, fun k t hk hkl hku => ?_, ?_⟩
  rotate_left
  · obtain ⟨runs, -, r2, -, r4⟩ := runs_of_ok _ wf _ _ vtws hg
    obtain ⟨⟨a, b⟩, hp, w1, w2, w3, w4⟩ := forall₂_mem_right r4 hv
    simp only at w1 w2
    obtain ⟨m1, m2, m3, m4, m5⟩ := (r2 a b).1 hp
    have ha := proper_window hinc w1 w2 (by linarith)
    rw [if_neg ha] at w1
    refine ⟨a - 1, b, v.rise, v.set, w1, w2, index_lt _ hinc _ _ _ _ w1 w2 (by linarith), h3,
      by unfold nanosecond; linarith, fun k hk hk' => m3 k (by omega) hk', m4.resolve_left ha, ?_,
      fun hw => ?_, ?_⟩
    · intro hv
      rcases m5 with m5 | m5
      · obtain ⟨⟨e, he, -⟩, -⟩ := hv
        have := (List.getElem?_eq_some_iff.1 he).1
        rw [wf.1] at this
        omega
      · exact m5 hv
    · refine (h6 (by linarith)).trans (add_le_add le_rfl ?_)
      rw [div_le_iff₀ (by linarith)]
      linarith
    · cases hla : x.lookAngle with
      | none =>
        rw [hla] at h7
        exact le_trans (show |_| ≤ 6 * (1 / 2 ^ 53) * 3000000 from h7) (by norm_num)
      | some look =>
        rw [hla] at h7
        exact asAsked_of wf hinc w1 w2 (by omega) m2 w3 w4 h3 h7
  refine C79_contains_only_visible_partial _ wf _ _ vtws hg hinc v hv k t hk (by linarith) ?_
  by_contra hc
  rw [not_le] at hc
  obtain ⟨j, hj⟩ := List.mem_iff_getElem?.1 (windows_at_samples wf hg hv).2
  have hjk := index_lt _ hinc _ _ _ _ hj hk hc
  obtain ⟨l1, e1⟩ := List.getElem?_eq_some_iff.1 hj
  obtain ⟨l2, e2⟩ := List.getElem?_eq_some_iff.1 hk
  have := List.pairwise_iff_getElem.1 hgap j k l1 l2 hjk
  rw [e1, e2] at this
  unfold nanosecond at this
  linarith

/-! ### C108 -/

/-- **C108.** In Python's arithmetic, after any history of `add_request` and `generate` calls on a
scheduler, for any arguments and any random draws: if `generate` returns, its observations can be
matched one-to-one with distinct acceptable requests so that each observation carries out its
request. -/
theorem C108_float_observations_see_their_targets (m : Mission K) (hm : SoundFloats m)
    (calls : List Call) (hx : ∀ x, Call.add x ∈ calls → Reasonable x) (a : GenerateArgs)
    (ws : List Observation)
    (h : (Schedule.Rounded.generate (binaryRound 53) (run (binaryRound 53) m calls) a).1 = .ok ws) :
    ∃ served, served.Subperm (accepted m calls) ∧ List.Forall₂ (CarriesOut m) served ws := by
  rw [run_operations] at h
  have hacc := submissions_accepted hm.sound calls
  have hr : ∀ x ∈ accepted m calls, Reasonable x := fun x h => hx x (mem_accepted h).1
  have hsub : ∀ s ∈ submissions (calls.filterMap (operation m)),
      Submittable (binaryRound 53) 3000000 s := by
    intro s hs
    obtain ⟨x, hx', hm'⟩ := forall₂_mem_left hacc hs
    exact submittable_of hm (hr x hx') hm'
  obtain ⟨subs, hp, hf⟩ := C100_windows_feasible_up_to_rounding rounding_binary64 _ a ws hsub h
  obtain ⟨served, h1, h2⟩ := subperm_forall₂ hp hacc
  refine ⟨served, h1, ?_⟩
  have hr' : ∀ x ∈ served, Reasonable x := fun x h => hr x (h1.subset h)
  clear h1 hp h
  induction hf generalizing served with
  | nil => cases h2; exact .nil
  | cons h0 _ ih =>
    cases h2 with
    | cons h3 h4 =>
      exact .cons (carriesOut_of_serves hm (hr' _ List.mem_cons_self) h3 h0)
        (ih _ h4 fun x hx => hr' x (List.mem_cons_of_mem _ hx))

/-! ### concrete data -/

/-- The scheduler of `demoMission` with Julian dates of the year 2020, one sample a minute. -/
def floatMission : Mission ℚ :=
  ⟨fun loc => { demoMission.scene loc with
    julian := (List.range 8).map fun k => binaryRound 53 (2459000 + k / 1440) }, 10⟩

theorem floatMission_sound : SoundFloats floatMission := by
  intro loc
  unfold floatMission demoMission
  dsimp only
  split <;> refine ⟨⟨rfl, rfl, rfl⟩, ?_, ?_⟩ <;> decide +kernel

/-- Four requests with durations of seconds. -/
def floatCalls : List Call :=
  [ .add ⟨0, 2459001, 10, 5, 1, none, .day⟩, .add ⟨1, 2459001, 10, 5, 1, none, .anytime⟩,
    .add ⟨2, 2459001, 7, 5, 3, none, .night⟩, .add ⟨4, 2459001, 10, 5, 1, none, .day⟩ ]

/-- Non-vacuity for C108: two observations are scheduled. -/
example : SoundFloats floatMission ∧ (∀ x, Call.add x ∈ floatCalls → Reasonable x) ∧
    (Schedule.Rounded.generate (binaryRound 53) (run (binaryRound 53) floatMission floatCalls)
      (args (fun _ => 0) (-1) [])).1.map (·.map fun o => (o.location, o.duration)) =
      .ok [(0, 10), (2, 7)] := by
  refine ⟨floatMission_sound, ?_, by decide +kernel⟩
  intro x hx
  simp only [floatCalls, List.mem_cons, List.not_mem_nil, or_false, Call.add.injEq] at hx
  rcases hx with rfl | rfl | rfl | rfl <;>
    exact ⟨by decide +kernel, by norm_num, by norm_num⟩

end Celest.Planning.Rounded
