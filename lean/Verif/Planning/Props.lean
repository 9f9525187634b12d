/-
Properties C106 and C107: planning from requests to observations.
-/
import Verif.Planning.Model
import Verif.Windows.Geometry
import Verif.Schedule.PropsSchedule

namespace Celest.Planning

open Celest.Schedule Celest.Windows

variable {K : Type} [LinearOrder K] [Zero K] [OfNat K 90]

/-! ### Specification -/

/-- The request can be made: the satellite has velocities, the threshold is one of 0 to 90 degrees,
the lighting condition is one of the three, and the location is visible at some sample. -/
def Acceptable (m : Mission K) (x : Target) : Prop :=
  (m.scene x.location).hasVelocity = true ∧ (0 ≤ m.threshold ∧ m.threshold ≤ 90) ∧
    x.lighting ≠ .invalid ∧ ∃ k, Visible (m.scene x.location) m.threshold x.lighting k

open Classical in
/-- The acceptable requests of a history, in order. -/
noncomputable def accepted (m : Mission K) : List Call → List Target
  | [] => []
  | .add x :: calls => if Acceptable m x then x :: accepted m calls else accepted m calls
  | .generate _ :: calls => accepted m calls

/-- The samples of every location are complete, and their times increase. -/
def Mission.Sound (m : Mission K) : Prop :=
  ∀ loc, (m.scene loc).WellFormed ∧ (m.scene loc).julian.Pairwise (· < ·)

/-- An observation from `start` on, in the pass between the samples `i` and `j`, is made when asked:
without a look angle half the observation after the middle of the pass; with a look angle at a sample
during the pass such that the angle lies between the pitch at that sample and at the next one. -/
def AsAsked (sc : Scene K) (look : Option LookAngle) (duration : ℚ) (i j : ℕ) (tᵢ tⱼ start : ℚ) :
    Prop :=
  match look with
  | none => start = (tᵢ + tⱼ + duration / 86400) / 2
  | some (.quantity a) => ∃ k x y, i < k ∧ k < j ∧ sc.julian[k]? = some start ∧
      sc.pitch[k]? = some x ∧ sc.pitch[k + 1]? = some y ∧ (x ≤ a ∧ a ≤ y ∨ y ≤ a ∧ a ≤ x)
  | some (.raw _) => False

/-- The observation `o` carries out the request `x`: it is of the requested location and duration,
it ends before the deadline, and the location is visible at every sample during it; moreover,
unless the duration is negative, it lies between two samples `i` and `j` such that the location is
visible exactly at the samples after `i` up to and including `j`, the grade of the observation in
this pass is at least the one requested, and it is made when asked. -/
def CarriesOut (m : Mission K) (x : Target) (o : Observation) : Prop :=
  o.location = x.location ∧ o.duration = x.duration ∧
    o.start + o.duration / 86400 < x.deadline ∧
    (∀ (k : ℕ) (t : ℚ), (m.scene x.location).julian[k]? = some t → o.start ≤ t →
      t ≤ o.start + o.duration / 86400 → Visible (m.scene x.location) m.threshold x.lighting k) ∧
    (0 ≤ o.duration → ∃ (i j : ℕ) (tᵢ tⱼ : ℚ), (m.scene x.location).julian[i]? = some tᵢ ∧
      (m.scene x.location).julian[j]? = some tⱼ ∧ i < j ∧ tᵢ < o.start ∧
      o.start + o.duration / 86400 < tⱼ ∧
      (∀ k, i < k → k ≤ j → Visible (m.scene x.location) m.threshold x.lighting k) ∧
      ¬ Visible (m.scene x.location) m.threshold x.lighting i ∧
      ¬ Visible (m.scene x.location) m.threshold x.lighting (j + 1) ∧
      x.quality ≤ (grade tᵢ tⱼ o.start : ℚ) ∧
      AsAsked (m.scene x.location) x.lookAngle x.duration i j tᵢ tⱼ o.start)

/-! ### Lemmas -/

/-- The windows a request is accepted with. -/
theorem generateVtws_ok_iff {m : Mission K} (hm : m.Sound) (x : Target) :
    (∃ ws, generateVtws (m.scene x.location) m.threshold x.lighting = .ok ws) ↔
      Acceptable m x := by
  constructor
  · rintro ⟨ws, h⟩
    obtain ⟨h1, h2, h3⟩ := valid_of_ok _ _ _ _ h
    refine ⟨h1, h2, h3, ?_⟩
    by_contra hn
    rw [C25_no_visible_sample_raises _ (hm _).1 _ _ h1 h2 h3 (by simpa using hn)] at h
    cases h
  · rintro ⟨h1, h2, h3, h4⟩
    obtain ⟨-, ws, h, -⟩ := C23_windows_are_maximal_runs_partial _ (hm _).1 _ _ h1 h2 h3 h4
    exact ⟨ws, h⟩

/-- The operation on the handler a call amounts to, if it does not raise. -/
def operation (m : Mission K) : Call → Option Op
  | .add x =>
    match generateVtws (m.scene x.location) m.threshold x.lighting with
    | .error _ => none
    | .ok vtws => some (.add (x.submission vtws))
  | .generate a => some (.generate a)

theorem foldl_operations (m : Mission K) (calls : List Call) (h : Handler) :
    calls.foldl (step m) h = (calls.filterMap (operation m)).foldl Schedule.step h := by
  induction calls generalizing h with
  | nil => rfl
  | cons c calls ih =>
    rw [List.foldl_cons, ih]
    cases c with
    | generate a => rfl
    | add x =>
      cases hg : generateVtws (m.scene x.location) m.threshold x.lighting with
      | error e => simp only [List.filterMap_cons, operation, step, addRequest, hg]
      | ok vtws =>
        simp only [List.filterMap_cons, operation, step, addRequest, hg, List.foldl_cons,
          Schedule.step]

/-- A history of calls is a history of operations on the handler. -/
theorem run_operations (m : Mission K) (calls : List Call) :
    run m calls = Schedule.run (calls.filterMap (operation m)) :=
  foldl_operations m calls _

/-- A submission made from an acceptable request with the windows generated for it. -/
def MadeFrom (m : Mission K) (s : Submission) (x : Target) : Prop :=
  ∃ vtws, generateVtws (m.scene x.location) m.threshold x.lighting = .ok vtws ∧
    s = x.submission vtws

theorem submissions_accepted {m : Mission K} (hm : m.Sound) (calls : List Call) :
    List.Forall₂ (MadeFrom m) (submissions (calls.filterMap (operation m))) (accepted m calls) := by
  induction calls with
  | nil => exact .nil
  | cons c calls ih =>
    cases c with
    | generate a => exact ih
    | add x =>
      have hi := generateVtws_ok_iff hm x
      cases hg : generateVtws (m.scene x.location) m.threshold x.lighting with
      | error e =>
        rw [hg] at hi
        have hn : ¬ Acceptable m x := by
          rw [← hi]
          rintro ⟨ws, h⟩
          cases h
        simp only [List.filterMap_cons, operation, hg, accepted, if_neg hn]
        exact ih
      | ok vtws =>
        have ha : Acceptable m x := hi.1 ⟨vtws, hg⟩
        simp only [List.filterMap_cons, operation, hg, accepted, if_pos ha, submissions]
        exact .cons ⟨vtws, hg, rfl⟩ ih

/-- Sub-permutations follow an element-wise relation. -/
theorem subperm_forall₂ {α β : Type} {R : α → β → Prop} {l l' : List α} {k : List β}
    (hp : l'.Subperm l) (h : List.Forall₂ R l k) :
    ∃ k', k'.Subperm k ∧ List.Forall₂ R l' k' := by
  obtain ⟨l'', hp1, hs⟩ := hp
  have key : ∀ {l'' l : List α}, l''.Sublist l → ∀ {k : List β}, List.Forall₂ R l k →
      ∃ k'', k''.Sublist k ∧ List.Forall₂ R l'' k'' := by
    intro l'' l hs
    induction hs with
    | slnil => intro k h; exact ⟨[], List.nil_sublist _, .nil⟩
    | cons a _ ih =>
      intro k h
      cases h with
      | cons _ h =>
        obtain ⟨k'', h1, h2⟩ := ih h
        exact ⟨k'', h1.cons _, h2⟩
    | cons_cons a _ ih =>
      intro k h
      cases h with
      | @cons _ b _ _ h0 h =>
        obtain ⟨k'', h1, h2⟩ := ih h
        exact ⟨b :: k'', h1.cons_cons _, .cons h0 h2⟩
  obtain ⟨k'', h1, h2⟩ := key hs h
  obtain ⟨k', h3, h4⟩ := List.perm_comp_forall₂ hp1.symm h2
  exact ⟨k', ⟨k'', h4.symm, h1⟩, h3⟩

/-- The start the scheduler proposes in a generated window is the one asked for. -/
theorem asAsked_of {sc : Scene K} (wf : sc.WellFormed) (hinc : sc.julian.Pairwise (· < ·)) {v : VTW}
    {i j : ℕ} (hi : sc.julian[i]? = some v.rise) (hj : sc.julian[j]? = some v.set) (hij : i < j)
    (hl : j < sc.julian.length) (ht : v.attTime = sc.julian) (hp : v.attPitch = sc.pitch)
    {look : Option LookAngle} {duration s : ℚ} (hr : v.rise < s) (h : StartTime look duration v s) :
    AsAsked sc look duration i j v.rise v.set s := by
  unfold StartTime at h
  split at h
  · exact h
  · rename_i a
    have hidx : ∀ (i : ℕ) (x : ℚ), sc.julian[i]? = some x → sc.julian.idxOf? x = some i := by
      intro i x hx
      obtain ⟨hi, rfl⟩ := List.getElem?_eq_some_iff.1 hx
      rw [List.idxOf?_eq_some_iff]
      refine ⟨hi, by simp, ?_⟩
      intro j hj
      have := List.pairwise_iff_getElem.1 hinc j i (by omega) hi hj
      exact this.ne
    have hpl : j < sc.pitch.length := by rw [wf.2.2]; exact hl
    obtain ⟨res, r1, -, r3⟩ := C22_bisection sc.pitch sc.julian a v.rise v.set i j hij
      (hidx _ _ hi) (hidx _ _ hj) hpl (sc.pitch[i]'(by omega)) sc.pitch[j]
      (List.getElem?_eq_getElem (by omega)) (List.getElem?_eq_getElem (by omega))
    rw [ht, hp, r1, Except.ok.injEq] at h
    obtain ⟨k, x, y, k1, k2, k3, k4, k5, k6⟩ := r3 s h
    exact ⟨k, x, y, index_lt _ hinc _ _ _ _ hi k3 hr, k2, k3, k4, k5, k6⟩
  · exact h

/-- A feasible observation is one the request asked for. -/
theorem carriesOut_of_serves {m : Mission K} (hm : m.Sound) {s : Submission} {x : Target}
    {o : Observation} (hx : MadeFrom m s x) (hs : Serves s o) : CarriesOut m x o := by
  obtain ⟨vtws, hg, rfl⟩ := hx
  obtain ⟨h1, h2, v, hv, h3, h4, h5, h6, h7⟩ := hs
  obtain ⟨wf, hinc⟩ := hm x.location
  simp only [Target.submission, days] at h1 h2 h4 h5 h6 h7 hv
  rw [← h2] at h4 h5
  refine ⟨h1, h2, h5, fun k t hk hkl hku => ?_, fun hd => ?_⟩
  · exact C79_contains_only_visible_partial _ wf _ _ vtws hg hinc v hv k t hk (by linarith)
      (by linarith)
  · obtain ⟨runs, -, r2, -, r4⟩ := runs_of_ok _ wf _ _ vtws hg
    obtain ⟨⟨a, b⟩, hp, w1, w2, w3, w4⟩ := forall₂_mem_right r4 hv
    simp only at w1 w2
    have hd : 0 ≤ o.duration / 86400 := div_nonneg hd (by norm_num)
    obtain ⟨m1, m2, m3, m4, m5⟩ := (r2 a b).1 hp
    have ha := proper_window hinc w1 w2 (by linarith)
    rw [if_neg ha] at w1
    refine ⟨a - 1, b, v.rise, v.set, w1, w2, index_lt _ hinc _ _ _ _ w1 w2 (by linarith), h3, h4,
      fun k hk hk' => m3 k (by omega) hk', m4.resolve_left ha, ?_, h6, ?_⟩
    · intro hv
      rcases m5 with m5 | m5
      · obtain ⟨⟨e, he, -⟩, -⟩ := hv
        have := (List.getElem?_eq_some_iff.1 he).1
        rw [wf.1] at this
        omega
      · exact m5 hv
    · exact asAsked_of wf hinc w1 w2 (by omega) m2 w3 w4 h3 h7

/-! ### concrete data -/

/-- Location 1 is never visible, the others are visible at samples 2, 3 and 6. -/
def demoMission : Mission ℚ :=
  ⟨fun loc => if loc = 1 then ⟨true, demo.julian, demo.elevation.map fun _ => none,
    demo.sunElevation, demo.pitch⟩ else demo, 10⟩

theorem demoMission_sound : demoMission.Sound := by
  intro loc
  unfold demoMission
  dsimp only
  split <;> refine ⟨⟨rfl, rfl, rfl⟩, ?_⟩ <;> decide +kernel

/-- Six calls: a generation without requests, a request by day, one for the location that is never
visible, one by night, one with an invalid lighting condition and another one by day. -/
def demoCalls : List Call :=
  [ .generate (args (fun _ => 0) (-1) []), .add ⟨0, 8, 600, 5, 1, none, .day⟩,
    .add ⟨1, 8, 600, 5, 1, none, .anytime⟩, .add ⟨2, 8, 7200, 5, 3, none, .night⟩,
    .add ⟨3, 8, 600, 5, 1, none, .invalid⟩, .add ⟨4, 8, 600, 5, 1, none, .day⟩ ]

/-! ### C106 -/

/-- **C106.** After any history of `add_request` and `generate` calls on a scheduler, including
calls that raised, for any arguments and any random draws: if `generate` returns, its observations
can be matched one-to-one with distinct acceptable requests so that each observation carries out
its request. -/
theorem C106_observations_see_their_targets (m : Mission K) (hm : m.Sound) (calls : List Call)
    (a : GenerateArgs) (ws : List Observation)
    (h : (Schedule.generate (run m calls) a).1 = .ok ws) :
    ∃ served, served.Subperm (accepted m calls) ∧ List.Forall₂ (CarriesOut m) served ws := by
  rw [run_operations] at h
  obtain ⟨subs, hp, hf⟩ := C01_every_window_serves_its_own_request _ a ws h
  obtain ⟨served, h1, h2⟩ := subperm_forall₂ hp (submissions_accepted hm calls)
  refine ⟨served, h1, ?_⟩
  clear h1 hp h
  induction hf generalizing served with
  | nil => cases h2; exact .nil
  | cons h0 _ ih =>
    cases h2 with
    | cons h3 h4 => exact .cons (carriesOut_of_serves hm h3 h0) (ih _ h4)

/-- **C106.** Between samples nothing is promised: an observation may begin before its target comes
into view.  There are a scheduler and requests for which `generate` returns an observation with no
sample during it and the target not visible at the last sample before it. -/
theorem C106_may_begin_out_of_view : ∃ (m : Mission ℚ) (calls : List Call) (a : GenerateArgs)
    (o : Observation) (x : Target), m.Sound ∧ Call.add x ∈ calls ∧
      (∃ ws, (Schedule.generate (run m calls) a).1 = .ok ws ∧ o ∈ ws) ∧
      o.location = x.location ∧ (m.scene x.location).julian[1]? = some 1 ∧ 1 < o.start ∧
      o.start + o.duration / 86400 < 2 ∧ (m.scene x.location).julian[2]? = some 2 ∧
      ¬ Visible (m.scene x.location) m.threshold x.lighting 1 := by
  refine ⟨demoMission, demoCalls, args (fun _ => 0) (-1) [], ⟨433 / 288, 600, 0, []⟩,
    ⟨0, 8, 600, 5, 1, none, .day⟩, demoMission_sound, by simp [demoCalls], ?_, rfl, rfl,
    by norm_num, by norm_num, rfl, ?_⟩
  · exact ⟨_, (by decide +kernel : _ = Except.ok
      [⟨433 / 288, 600, 0, []⟩, ⟨61 / 24, 7200, 2, []⟩]), by simp⟩
  · rintro ⟨⟨e, he, hlt⟩, -⟩
    have h3 : (demoMission.scene 0).elevation[1]? = some (some 3) := rfl
    rw [h3] at he
    cases he
    exact absurd hlt (by simp [demoMission]; norm_num)

/-- Accepted requests were made and are acceptable. -/
theorem mem_accepted {m : Mission K} {calls : List Call} {x : Target} (h : x ∈ accepted m calls) :
    Call.add x ∈ calls ∧ Acceptable m x := by
  induction calls with
  | nil => cases h
  | cons c calls ih =>
    cases c with
    | generate a => exact ⟨List.mem_cons_of_mem _ (ih h).1, (ih h).2⟩
    | add y =>
      simp only [accepted] at h
      split at h
      · rename_i hy
        rcases List.mem_cons.1 h with rfl | h
        · exact ⟨List.mem_cons_self, hy⟩
        · exact ⟨List.mem_cons_of_mem _ (ih h).1, (ih h).2⟩
      · exact ⟨List.mem_cons_of_mem _ (ih h).1, (ih h).2⟩

/-- **C106.** What a request says is what is planned with: after any history the scheduler holds
exactly the accepted requests, each with the location, deadline, duration, priority, quality and look
angle given to `add_request`. -/
theorem C106_requests_held (m : Mission K) (hm : m.Sound) (calls : List Call) :
    ((run m calls).requests.map fun r =>
      (r.location, r.deadline, r.duration, r.priority, r.quality, r.lookAngle)).Perm
    ((accepted m calls).map fun x =>
      (x.location, x.deadline, x.duration, x.priority, x.quality, x.lookAngle)) := by
  rw [run_operations]
  have h := C03_requests_preserved (calls.filterMap (operation m))
  have h1 := h.map fun f : Fixed =>
    (f.location, f.deadline, f.duration, f.priority, f.quality, f.lookAngle)
  simp only [List.map_map] at h1
  refine h1.trans (List.Perm.of_eq ?_)
  have h2 := submissions_accepted hm calls
  clear h h1
  generalize submissions (calls.filterMap (operation m)) = l at h2 ⊢
  generalize accepted m calls = l' at h2 ⊢
  induction h2 with
  | nil => rfl
  | cons h0 _ ih =>
    obtain ⟨vtws, -, rfl⟩ := h0
    simp only [List.map_cons, ih]
    rfl

/-- Non-vacuity for the look angle of C106: of two requests the first asks for the angle 55, which
the pitch passes between the samples 2 (60 degrees) and 3 (50 degrees) of the pass. -/
example : (Schedule.generate (run demoMission
      [.add ⟨0, 8, 600, 5, 1, some (.quantity 55), .anytime⟩, .add ⟨2, 8, 600, 4, 1, none, .anytime⟩])
      (args (fun _ => 0) (-1) [])).1.map (·.map fun o => (o.location, o.start)) = .ok [(0, 2)] := by
  decide +kernel

/-- A scheduler for a satellite and ground stations. -/
noncomputable def missionOf (s : Frames.Satellite) (station : ℕ → Frames.Ground) (times : List ℚ)
    (sun : ℝ → Frames.Vec) (pitch : ℕ → List ℚ) (threshold : ℝ) : Mission ℝ :=
  ⟨fun loc => sceneOf s (station loc) times sun (pitch loc), threshold⟩

theorem missionOf_sound {c : Frames.Cartesian} {v : Frames.Position} {s : Frames.Satellite}
    (station : ℕ → Frames.Ground) {times : List ℚ} (sun : ℝ → Frames.Vec) {pitch : ℕ → List ℚ}
    (threshold : ℝ) (hs : Frames.Satellite.make (.gcrs c) (some v) = .ok s)
    (ht : c.samples.map (·.1) = times.map fun q : ℚ => (q : ℝ))
    (hp : ∀ loc, (pitch loc).length = times.length) (hinc : times.Pairwise (· < ·)) :
    (missionOf s station times sun pitch threshold).Sound :=
  fun loc => ⟨(sceneOf_wf c v s (station loc) times sun (pitch loc) hs ht (hp loc)).1, hinc⟩

/-- **C106.** The same in the geometry of the inertial frame, for a satellite given by inertial
(GCRS) positions in any length unit: whenever an observation is under way at the instant of one of
these positions, the satellite is above the elevation mask of the observed station and the Sun is on
the requested side of its horizon. -/
theorem C106_observations_geometric (c : Frames.Cartesian) (v : Frames.Position)
    (s : Frames.Satellite) (station : ℕ → Frames.Ground) (times : List ℚ) (sun : ℝ → Frames.Vec)
    (pitch : ℕ → List ℚ) (threshold : ℝ) (hs : Frames.Satellite.make (.gcrs c) (some v) = .ok s)
    (ht : c.samples.map (·.1) = times.map fun q : ℚ => (q : ℝ))
    (hp : ∀ loc, (pitch loc).length = times.length) (hinc : times.Pairwise (· < ·))
    (calls : List Call) (a : GenerateArgs) (ws : List Observation)
    (h : (Schedule.generate (run (missionOf s station times sun pitch threshold) calls) a).1 =
      .ok ws) :
    ∀ o ∈ ws, ∃ x, Call.add x ∈ calls ∧ o.location = x.location ∧ o.duration = x.duration ∧
      o.start + o.duration / 86400 < x.deadline ∧
      ∀ (t : ℚ) (r : Frames.Vec), ((t : ℝ), r) ∈ c.samples → o.start ≤ t →
        t ≤ o.start + o.duration / 86400 →
        InView (station o.location) threshold t (c.unit • r) ∧
          SunOk (station o.location) sun t x.lighting := by
  obtain ⟨served, h1, h2⟩ := C106_observations_see_their_targets _
    (missionOf_sound station sun threshold hs ht hp hinc) calls a ws h
  intro o ho
  obtain ⟨x, hx, hl, hd, hdl, hvis, -⟩ := Forall₂.mem_right h2 ho
  obtain ⟨hxc, hxa⟩ := mem_accepted (h1.subset hx)
  refine ⟨x, hxc, hl, hd, hdl, fun t r htr hlo hup => ?_⟩
  obtain ⟨k, hk⟩ := List.mem_iff_getElem?.1 htr
  rw [hl]
  exact (visible_iff c v s (station x.location) times sun (pitch x.location) threshold x.lighting
    hs ht hxa.2.1.1 k t r hk).1 (hvis k t (time_at ht hk) hlo hup)

/-! ### C107 -/

/-- **C107.** `add_request` raises exactly for requests that are not acceptable, and then leaves the
scheduler as it was. -/
theorem C107_refused_iff (m : Mission K) (hm : m.Sound) (h : Handler) (x : Target) :
    ((addRequest m h x).2 ≠ none ↔ ¬ Acceptable m x) ∧
      ((addRequest m h x).2 ≠ none → (addRequest m h x).1 = h) := by
  have hi := generateVtws_ok_iff hm x
  unfold addRequest
  cases hg : generateVtws (m.scene x.location) m.threshold x.lighting with
  | error e =>
    rw [hg] at hi
    refine ⟨⟨fun _ => ?_, fun _ => by simp⟩, fun _ => rfl⟩
    rw [← hi]
    rintro ⟨ws, h⟩
    cases h
  | ok vtws =>
    rw [hg] at hi
    exact ⟨⟨fun hn => absurd rfl hn, fun hn => absurd (hi.1 ⟨vtws, rfl⟩) hn⟩,
      fun hn => absurd rfl hn⟩

/-- **C107.** Which exception is raised: `Warning` for a satellite without velocities, otherwise
`ValueError` for an invalid threshold or lighting condition, otherwise `IndexError` for a location
that is never visible. -/
theorem C107_refused_with (m : Mission K) (hm : m.Sound) (h : Handler) (x : Target)
    (hx : ¬ Acceptable m x) : (addRequest m h x).2 = some
      (if (m.scene x.location).hasVelocity = false then .warning
       else if m.threshold < 0 ∨ 90 < m.threshold ∨ x.lighting = .invalid then .valueError
       else .indexError) := by
  unfold addRequest
  by_cases hr : (m.scene x.location).hasVelocity = false ∨ m.threshold < 0 ∨ 90 < m.threshold ∨
      x.lighting = .invalid
  · rw [C23_rejected_arguments_partial _ _ _ hr]
    cases hv : (m.scene x.location).hasVelocity with
    | false => simp
    | true =>
      rw [hv] at hr
      simp only [Bool.true_eq_false, false_or] at hr
      simp [hr]
  · simp only [not_or, Bool.not_eq_false, not_lt] at hr
    obtain ⟨h1, h2, h3, h4⟩ := hr
    rw [C25_no_visible_sample_raises _ (hm _).1 _ _ h1 ⟨h2, h3⟩ h4
      (fun k hk => hx ⟨h1, ⟨h2, h3⟩, h4, k, hk⟩)]
    simp [h1, not_lt.2 h2, not_lt.2 h3, h4]

open Classical in
/-- **C107.** A refused request has no effect on anything later: the scheduler is in the same state
as if only the acceptable requests had been made, so `generate` gives the same result for the same
arguments and random draws. -/
theorem C107_refused_requests_do_not_matter (m : Mission K) (hm : m.Sound) (calls : List Call) :
    run m calls = run m (calls.filter fun c => match c with
      | .add x => Acceptable m x
      | .generate _ => True) := by
  rw [run_operations, run_operations, List.filterMap_filter]
  congr 1
  apply List.filterMap_congr
  intro c _
  cases c with
  | generate a => simp
  | add x =>
    have hi := generateVtws_ok_iff hm x
    by_cases hx : Acceptable m x
    · simp [hx]
    · simp only [hx, decide_false, Bool.false_eq_true, if_false, operation]
      cases hg : generateVtws (m.scene x.location) m.threshold x.lighting with
      | error e => rfl
      | ok vtws => exact absurd (hi.1 ⟨vtws, hg⟩) hx

/-- Non-vacuity for C106 and C107: the scheduler of these calls schedules two of the three acceptable
requests, one between samples 1 and 2 and one between samples 2 and 3, and the refused requests
raise. -/
example : demoMission.Sound ∧
    (Schedule.generate (run demoMission demoCalls) (args (fun _ => 0) (-1) [])).1.map
      (·.map fun o => (o.location, ⌊o.start⌋, o.duration)) = .ok [(0, 1, 600), (2, 2, 7200)] ∧
    (addRequest demoMission Handler.empty ⟨1, 8, 600, 5, 1, none, .anytime⟩).2 =
      some .indexError ∧
    (addRequest demoMission Handler.empty ⟨3, 8, 600, 5, 1, none, .invalid⟩).2 =
      some .valueError :=
  ⟨demoMission_sound, by decide +kernel, by decide +kernel, by decide +kernel⟩

/-- A scene of four samples of which all but the first are visible has one window. -/
theorem generateVtws_four {sc : Scene K} (wf : sc.WellFormed) {threshold : K} {lighting : Lighting}
    {t₀ t₁ t₂ t₃ : ℚ} (hj : sc.julian = [t₀, t₁, t₂, t₃]) (hv : sc.hasVelocity = true)
    (ht : 0 ≤ threshold ∧ threshold ≤ 90) (hl : lighting ≠ .invalid)
    (hvis : ∀ k < 4, Visible sc threshold lighting k ↔ k ≠ 0) :
    generateVtws sc threshold lighting = .ok [⟨t₀, t₃, [t₀, t₁, t₂, t₃], sc.pitch⟩] := by
  obtain ⟨runs, ws, h1, h2, h3, h4⟩ := C23_windows_are_maximal_runs_partial sc wf threshold lighting hv ht
    hl ⟨1, (hvis 1 (by norm_num)).2 (by norm_num)⟩
  rw [hj] at h2 h4
  have hm : ∀ a b, (a, b) ∈ runs ↔ a = 1 ∧ b = 3 := by
    intro a b
    rw [h2]
    constructor
    · rintro ⟨m1, m2, m3, m4, m5⟩
      simp only [List.length_cons, List.length_nil, zero_add, Nat.reduceAdd] at m2 m5
      have ha : a ≠ 0 := (hvis a (by omega)).1 (m3 a le_rfl m1)
      refine ⟨?_, ?_⟩
      · by_contra hc
        rcases m4 with m4 | m4
        · omega
        · exact m4 ((hvis _ (by omega)).2 (by omega))
      · by_contra hc
        rcases m5 with m5 | m5
        · omega
        · exact m5 ((hvis _ (by omega)).2 (by omega))
    · rintro ⟨rfl, rfl⟩
      refine ⟨by norm_num, by norm_num, fun k hk hk' => (hvis k (by omega)).2 (by omega), ?_, ?_⟩
      · right
        rw [hvis _ (by norm_num)]
        norm_num
      · left
        norm_num
  have hr : runs = [(1, 3)] := by
    cases runs with
    | nil => exact absurd ((hm 1 3).2 ⟨rfl, rfl⟩) (by simp)
    | cons p runs =>
      have hp : p = (1, 3) := by
        obtain ⟨e1, e2⟩ := (hm p.1 p.2).1 (by simp)
        exact Prod.ext e1 e2
      cases runs with
      | nil => rw [hp]
      | cons q runs =>
        obtain ⟨e1, e2⟩ := (hm q.1 q.2).1 (by simp)
        have := (List.pairwise_cons.1 h3).1 q (by simp)
        rw [hp, e1] at this
        norm_num at this
  rw [hr] at h4
  cases h4 with
  | @cons _ w _ l w1 w2 =>
    cases w2
    rw [h1]
    obtain ⟨w1, w2, w3, w4⟩ := w1
    obtain ⟨r, s, x, y⟩ := w
    simp at w1 w2
    simp only at w3 w4
    rw [w3, w4, ← w1, ← w2]

open Frames TimeScale in
/-- Non-vacuity for the geometry of C106: for every station of non-negative height, a satellite that
is first on the other side of the Earth and then in the station's zenith at three samples is
observed, and a sample falls into the observation. -/
example (g : Ground) (hg : 0 ≤ g.height) (v : Cartesian) (sun : ℝ → Vec) :
    ∃ (s : Satellite) (calls : List Call) (ws : List Observation),
      Satellite.make (.gcrs ⟨1, [(0, (-2 : ℝ) • stationAt g 0), (1, (2 : ℝ) • stationAt g 1),
        (2, (2 : ℝ) • stationAt g 2), (3, (2 : ℝ) • stationAt g 3)]⟩) (some (.gcrs v)) = .ok s ∧
      (Schedule.generate (run (missionOf s (fun _ => g) [0, 1, 2, 3] sun (fun _ => [0, 0, 0, 0]) 10)
        calls) (args (fun _ => 0) (-1) [])).1 = .ok ws ∧
      ∃ o ∈ ws, o.start ≤ 2 ∧ 2 ≤ o.start + o.duration / 86400 := by
  have hne : ∀ t, stationAt g t ≠ 0 := by
    intro t h0
    obtain ⟨m, -, -, h2⟩ := to_itrs_rotation g t
    rw [h0, Matrix.mulVec_zero] at h2
    exact itrs_ne_zero g hg h2.symm
  have hpi := Real.pi_pos
  have hr : 0 < rad (90 - 10) ∧ rad (90 - 10) < Real.pi := by
    unfold rad
    constructor
    · positivity
    · linarith
  have h0 : ∀ t, ¬ InView g 10 t ((1 : ℝ) • (-2 : ℝ) • stationAt g t) := by
    intro t
    have e : (1 : ℝ) • (-2 : ℝ) • stationAt g t - stationAt g t = (-3 : ℝ) • stationAt g t := by
      module
    have e2 : toE ((-3 : ℝ) • stationAt g t) = (-3 : ℝ) • toE (stationAt g t) := rfl
    rw [InView, e, e2, InnerProductGeometry.angle_smul_left_of_neg _ _ (by norm_num),
      InnerProductGeometry.angle_neg_self_of_nonzero (toE_ne (hne t))]
    linarith [hr.2]
  have h1 : ∀ t, InView g 10 t ((1 : ℝ) • (2 : ℝ) • stationAt g t) := by
    intro t
    have e : (1 : ℝ) • (2 : ℝ) • stationAt g t - stationAt g t = stationAt g t := by
      module
    rw [InView, e, InnerProductGeometry.angle_self (toE_ne (hne t))]
    exact hr.1
  obtain ⟨s, hs⟩ : ∃ s, Satellite.make (.gcrs ⟨1, [(0, (-2 : ℝ) • stationAt g 0),
      (1, (2 : ℝ) • stationAt g 1), (2, (2 : ℝ) • stationAt g 2), (3, (2 : ℝ) • stationAt g 3)]⟩)
      (some (.gcrs v)) = .ok s := ⟨_, rfl⟩
  have ht : [(0, (-2 : ℝ) • stationAt g 0), (1, (2 : ℝ) • stationAt g 1),
      (2, (2 : ℝ) • stationAt g 2), (3, (2 : ℝ) • stationAt g 3)].map (·.1) =
      ([0, 1, 2, 3] : List ℚ).map fun q : ℚ => (q : ℝ) := by simp
  have hvis := fun k t r hk => visible_iff _ _ s g [0, 1, 2, 3] sun [0, 0, 0, 0] 10 .anytime hs ht
    (by norm_num) k t r hk
  obtain ⟨wf, hv⟩ := sceneOf_wf _ _ s g [0, 1, 2, 3] sun [0, 0, 0, 0] hs ht rfl
  have hw := generateVtws_four (threshold := 10) (lighting := .anytime) wf rfl hv (by norm_num)
    (by decide) (by
      intro k hk
      have hcases : k = 0 ∨ k = 1 ∨ k = 2 ∨ k = 3 := by omega
      rcases hcases with rfl | rfl | rfl | rfl
      · rw [hvis 0 0 ((-2 : ℝ) • stationAt g 0) (by simp)]
        simpa using fun hc => (h0 0 (by simpa using hc)).elim
      · rw [hvis 1 1 ((2 : ℝ) • stationAt g 1) (by simp)]
        simpa [SunOk] using h1 1
      · rw [hvis 2 2 ((2 : ℝ) • stationAt g 2) (by simp)]
        simpa [SunOk] using h1 2
      · rw [hvis 3 3 ((2 : ℝ) • stationAt g 3) (by simp)]
        simpa [SunOk] using h1 3)
  refine ⟨s, [.add ⟨0, 8, 51840, 5, 1, none, .anytime⟩, .add ⟨0, 8, 51840, 5, 1, none, .anytime⟩],
    [⟨9 / 5, 51840, 0, []⟩], hs, ?_, _, List.mem_singleton_self _, by norm_num, by norm_num⟩
  rw [run_operations]
  have hp : (sceneOf s g [0, 1, 2, 3] sun [0, 0, 0, 0]).pitch = [0, 0, 0, 0] := rfl
  simp only [List.filterMap_cons, List.filterMap_nil, operation, missionOf, hw, Target.submission,
    hp]
  decide +kernel

end Celest.Planning
