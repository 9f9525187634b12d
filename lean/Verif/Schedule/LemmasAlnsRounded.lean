/-
Facts about the rounded search: what a pass, the loop and `solve` do when they do not raise, which
properties of solutions they keep, and that without rounding it is the exact search.
-/
import Verif.Schedule.AlnsRounded
import Verif.Schedule.LemmasAlns

namespace Celest

namespace Alns.Rounded

open Alns (Problem Draw bestScore betterScore acceptScore rejectScore sumScore)

variable {S : Type}

/-! ### One pass -/

/-- What a pass does when it does not raise. -/
theorem pass_ok {fl : ℚ → ℚ} {A : Problem S} {P : Params} {st : State S} {d : Draw} {ps : Pass S}
    (h : pass fl A P st d = .ok ps) :
    getIndex fl P.sum st.destroyWeights d.destroyDraw = .ok ps.destroyIndex ∧
    getIndex fl P.sum st.repairWeights d.repairDraw = .ok ps.repairIndex ∧
    ∃ destroy ∈ A.destroy, ∃ repair ∈ A.repair, ∃ t c b,
      destroy st.current P.toRemove d.picks = .ok t ∧ repair t P.toAdd = .ok c ∧
      accept fl P.exp (A.cost c) (A.cost st.current) st.temperature d.acceptDraw = .ok b ∧
      ps.next.current = (if b then c else st.current) ∧
      ps.next.best = (if A.cost c < A.cost st.best then c else st.best) ∧
      ps.next.temperature = fl (P.p * st.temperature) ∧
      ps.next.destroyWeights =
        updateWeights fl st.destroyWeights P.l ps.score ps.destroyIndex ∧
      ps.next.repairWeights =
        updateWeights fl st.repairWeights P.l ps.score ps.repairIndex := by
  unfold pass at h
  simp only [bind, Except.bind] at h
  cases hi : getIndex fl P.sum st.destroyWeights d.destroyDraw with
  | error e => simp [hi] at h
  | ok i =>
    cases hj : getIndex fl P.sum st.repairWeights d.repairDraw with
    | error e => simp [hi, hj] at h
    | ok j =>
      simp only [hi, hj] at h
      cases hdi : A.destroy[i]? with
      | none => simp [hdi] at h
      | some destroy =>
        cases hrj : A.repair[j]? with
        | none => simp [hdi, hrj] at h
        | some repair =>
          simp only [hdi, hrj] at h
          cases ht : destroy st.current P.toRemove d.picks with
          | error e => simp [ht] at h
          | ok t =>
            simp only [ht] at h
            cases hc : repair t P.toAdd with
            | error e => simp [hc] at h
            | ok c =>
              simp only [hc] at h
              cases hb : accept fl P.exp (A.cost c) (A.cost st.current) st.temperature
                  d.acceptDraw with
              | error e => simp [hb] at h
              | ok b =>
                simp only [hb, pure, Except.pure, Except.ok.injEq] at h
                subst h
                exact ⟨rfl, rfl, destroy, List.mem_of_getElem? hdi, repair, List.mem_of_getElem? hrj,
                  t, c, b, ht, hc, hb, rfl, by simp, rfl, rfl, rfl⟩

/-- A property of solutions that destroying and repairing keep. -/
def Kept (A : Problem S) (P : Params) (I : S → Prop) : Prop :=
  ∀ s, I s → ∀ f ∈ A.destroy, ∀ g ∈ A.repair, ∀ picks t c, f s P.toRemove picks = .ok t →
    g t P.toAdd = .ok c → I c

/-- What the loop does when it does not raise. -/
theorem loop_cons {fl : ℚ → ℚ} {A : Problem S} {P : Params} {st : State S} {d : Draw}
    {ds : List Draw} {s : S} {tr : List (Pass S)} (h : loop fl A P (d :: ds) st = .ok (s, tr)) :
    ∃ ps, pass fl A P st d = .ok ps ∧
      ((A.complete ps.next.best = true ∧ s = ps.next.best ∧ tr = [ps]) ∨
       ∃ tr', A.complete ps.next.best = false ∧ loop fl A P ds ps.next = .ok (s, tr') ∧
        tr = ps :: tr') := by
  unfold loop at h
  cases hp : pass fl A P st d with
  | error e => simp [hp] at h
  | ok ps =>
    simp only [hp] at h
    refine ⟨ps, rfl, ?_⟩
    by_cases hc : A.complete ps.next.best = true
    · rw [if_pos hc] at h
      simp only [Except.ok.injEq, Prod.mk.injEq] at h
      exact .inl ⟨hc, h.1.symm, h.2.symm⟩
    · rw [if_neg hc] at h
      cases hl : loop fl A P ds ps.next with
      | error e => simp [hl] at h
      | ok r =>
        obtain ⟨s', tr'⟩ := r
        simp only [hl, Except.ok.injEq, Prod.mk.injEq] at h
        refine .inr ⟨tr', by simpa using hc, ?_, h.2.symm⟩
        rw [h.1]

theorem solve_ok {fl : ℚ → ℚ} {A : Problem S} {P : Params} {initial s : S} {draws : List Draw}
    (h : solve fl A P initial draws = .ok s) :
    ∃ tr, solveTrace fl A P initial draws = .ok (s, tr) := by
  unfold solve at h
  cases ht : solveTrace fl A P initial draws with
  | error e => rw [ht] at h; simp [Except.map] at h
  | ok r =>
    obtain ⟨s', tr⟩ := r
    rw [ht] at h
    simp only [Except.map, Except.ok.injEq] at h
    exact ⟨tr, by rw [h]⟩

/-! ### Properties of solutions -/

theorem loop_kept {fl : ℚ → ℚ} {A : Problem S} {P : Params} {I : S → Prop} (hI : Kept A P I)
    (draws : List Draw) : ∀ {st : State S} {s : S} {tr : List (Pass S)}, I st.current →
      I st.best → loop fl A P draws st = .ok (s, tr) → I s := by
  induction draws with
  | nil =>
    intro st s tr _ hb h
    simp only [loop, Except.ok.injEq, Prod.mk.injEq] at h
    rw [← h.1]
    exact hb
  | cons d ds ih =>
    intro st s tr hc hb h
    obtain ⟨ps, hp, h⟩ := loop_cons h
    obtain ⟨-, -, f, hf, g, hg, t, c, b, ht, hc', -, hcur, hbest, -⟩ := pass_ok hp
    have hIc : I c := hI _ hc f hf g hg _ _ _ ht hc'
    have h1 : I ps.next.best := by rw [hbest]; split_ifs <;> assumption
    have h2 : I ps.next.current := by rw [hcur]; split_ifs <;> assumption
    rcases h with ⟨-, rfl, -⟩ | ⟨tr', -, h, -⟩
    · exact h1
    · exact ih h2 h1 h

/-- What destroying and repairing keep, `solve` keeps. -/
theorem solve_kept {fl : ℚ → ℚ} {A : Problem S} {P : Params} {I : S → Prop} (hI : Kept A P I)
    {initial s : S} (h0 : I initial) {draws : List Draw}
    (h : solve fl A P initial draws = .ok s) : I s := by
  obtain ⟨tr, h⟩ := solve_ok h
  unfold solveTrace at h
  split_ifs at h
  · simp only [Except.ok.injEq, Prod.mk.injEq] at h
    exact h.1 ▸ h0
  · exact loop_kept hI draws (st := initState fl A P initial) h0 h0 h

/-- What each operator keeps. -/
theorem kept_of {A : Problem S} {P : Params} {I : S → Prop}
    (hdes : ∀ f ∈ A.destroy, ∀ s s' picks, I s → f s P.toRemove picks = .ok s' → I s')
    (hrep : ∀ g ∈ A.repair, ∀ s s', I s → g s P.toAdd = .ok s' → I s') : Kept A P I :=
  fun s hs f hf g hg picks t c h1 h2 => hrep g hg t c (hdes f hf s t picks hs h1) h2

/-- The result of at most one pass. -/
theorem solve_short {fl : ℚ → ℚ} {A : Problem S} {P : Params} {initial s : S} {draws : List Draw}
    (hd : draws.length ≤ 1) (h : solve fl A P initial draws = .ok s) :
    s = initial ∨ ∃ f ∈ A.destroy, ∃ g ∈ A.repair, ∃ picks t,
      f initial P.toRemove picks = .ok t ∧ g t P.toAdd = .ok s := by
  obtain ⟨tr, h⟩ := solve_ok h
  unfold solveTrace at h
  split_ifs at h
  · simp only [Except.ok.injEq, Prod.mk.injEq] at h
    exact .inl h.1.symm
  · cases draws with
    | nil =>
      simp only [loop, Except.ok.injEq, Prod.mk.injEq] at h
      exact .inl h.1.symm
    | cons d ds =>
      have hds : ds = [] := by
        simp only [List.length_cons] at hd
        exact List.length_eq_zero_iff.1 (by omega)
      subst hds
      obtain ⟨ps, hp, h⟩ := loop_cons h
      obtain ⟨-, -, f, hf, g, hg, t, c, b, ht, hc, -, -, hbest, -⟩ := pass_ok hp
      have hs : s = ps.next.best := by
        rcases h with ⟨-, rfl, -⟩ | ⟨tr', -, h, -⟩
        · rfl
        · simp only [loop, Except.ok.injEq, Prod.mk.injEq] at h
          exact h.1.symm
      rw [hs, hbest]
      split_ifs
      · exact .inr ⟨f, hf, g, hg, _, t, ht, hc⟩
      · exact .inl rfl

/-! ### Without rounding -/

/-- The arguments of the exact search, with exact sums. -/
def ofExact (P : Alns.Params) (sum : List ℚ → ℚ) : Params :=
  { p := P.p, l := P.l, toRemove := P.toRemove, toAdd := P.toAdd, sum := sum
    exp := P.exp, logHalf := P.logHalf }

/-- The local variables of the exact search. -/
def ofState (st : Alns.State S) : State S :=
  ⟨st.current, st.best, st.temperature, st.destroyWeights, st.repairWeights⟩

theorem total_id (p : List ℚ) : total (fun x => x) p = p.sum := by
  unfold total
  rw [List.sum_eq_foldl]

theorem choose_id (x : ℚ) : ∀ (p : List ℚ) (acc : ℚ),
    choose (fun x => x) x p acc = Alns.choose x p acc
  | [], _ => rfl
  | [_], _ => rfl
  | w :: w' :: ws, acc => by
    unfold choose Alns.choose
    rw [choose_id x (w' :: ws)]

theorem getIndex_id (w : List ℚ) (u : ℚ) :
    getIndex (fun x => x) (total fun x => x) w u = Alns.getIndex w u := by
  unfold getIndex Alns.getIndex getProbabilities Alns.getProbabilities
  simp only [total_id]
  split_ifs
  · rfl
  · simp only [randomChoice, Alns.randomChoice, total_id, choose_id]

theorem pass_id (A : Problem S) (P : Alns.Params) (st : Alns.State S) (d : Draw) :
    (pass (fun x => x) A (ofExact P (total fun x => x)) (ofState st) d).map (·.next) =
      (Alns.pass A P st d).map fun ps => ofState ps.next := by
  unfold pass Alns.pass
  simp only [ofState, ofExact, getIndex_id, bind, Except.bind]
  cases Alns.getIndex st.destroyWeights d.destroyDraw with
  | error e => rfl
  | ok i =>
  cases Alns.getIndex st.repairWeights d.repairDraw with
  | error e => rfl
  | ok j =>
  simp only
  cases A.destroy[i]? with
  | none => rfl
  | some f =>
  cases A.repair[j]? with
  | none => rfl
  | some g =>
  simp only
  cases f st.current P.toRemove d.picks with
  | error e => rfl
  | ok t =>
  simp only
  cases g t P.toAdd with
  | error e => rfl
  | ok c =>
  simp only
  have : accept (fun x => x) P.exp (A.cost c) (A.cost st.current) st.temperature d.acceptDraw =
      Alns.accept P.exp (A.cost c) (A.cost st.current) st.temperature d.acceptDraw := rfl
  rw [this]
  cases Alns.accept P.exp (A.cost c) (A.cost st.current) st.temperature d.acceptDraw with
  | error e => rfl
  | ok b => rfl

theorem loop_id (A : Problem S) (P : Alns.Params) : ∀ (draws : List Draw) (st : Alns.State S),
    (loop (fun x => x) A (ofExact P (total fun x => x)) draws (ofState st)).map Prod.fst =
      (Alns.loop A P draws st).map Prod.fst
  | [], st => rfl
  | d :: ds, st => by
    have h := pass_id A P st d
    unfold loop Alns.loop
    cases hx : pass (fun x => x) A (ofExact P (total fun x => x)) (ofState st) d with
    | error e =>
      cases hy : Alns.pass A P st d with
      | error e' =>
        rw [hx, hy] at h
        simp only [Except.map, Except.error.injEq] at h
        simp [h, Except.map]
      | ok ps' => rw [hx, hy] at h; simp [Except.map] at h
    | ok ps =>
      cases hy : Alns.pass A P st d with
      | error e' => rw [hx, hy] at h; simp [Except.map] at h
      | ok ps' =>
        rw [hx, hy] at h
        simp only [Except.map, Except.ok.injEq] at h
        have hb : ps.next.best = ps'.next.best := by rw [h]; rfl
        simp only [hb]
        split_ifs
        · rfl
        · have ih := loop_id A P ds ps'.next
          rw [← h] at ih
          cases hl : loop (fun x => x) A (ofExact P (total fun x => x)) ds ps.next with
          | error e =>
            cases hl' : Alns.loop A P ds ps'.next with
            | error e' =>
              rw [hl, hl'] at ih
              simp only [Except.map, Except.error.injEq] at ih
              simp [ih, Except.map]
            | ok r => rw [hl, hl'] at ih; simp [Except.map] at ih
          | ok r =>
            cases hl' : Alns.loop A P ds ps'.next with
            | error e' => rw [hl, hl'] at ih; simp [Except.map] at ih
            | ok r' =>
              rw [hl, hl'] at ih
              simp only [Except.map, Except.ok.injEq] at ih
              simp [ih, Except.map]

/-- Without rounding the search is the exact one. -/
theorem solve_id (A : Problem S) (P : Alns.Params) (initial : S) (draws : List Draw) :
    solve (fun x => x) A (ofExact P (total fun x => x)) initial draws =
      Alns.solve A P initial draws := by
  unfold solve Alns.solve solveTrace Alns.solveTrace
  split_ifs
  · rfl
  · exact loop_id A P draws (Alns.initState A P initial)

end Alns.Rounded

end Celest
