/-
C123: saves at the same time.
-/
import Verif.Text.Concurrent
import Verif.Text.PropsCrash

namespace Celest.Text

theorem writeAt_length (t : Str) (o : ℕ) (s : Str) :
    (writeAt t o s).length = max t.length (o + s.length) := by
  simp [writeAt]
  omega

theorem writeAt_get (t : Str) (o : ℕ) (s : Str) (j : ℕ) :
    (writeAt t o s)[j]? =
      if j < o then (if j < t.length then t[j]? else some '\x00')
      else if j < o + s.length then s[j - o]? else t[j]? := by
  unfold writeAt
  have hl : ((t ++ List.replicate (o - t.length) '\x00').take o).length = o := by
    simp
    omega
  rw [List.append_assoc]
  by_cases h1 : j < o
  · rw [if_pos h1, List.getElem?_append_left (by omega), List.getElem?_take_of_lt h1]
    by_cases h2 : j < t.length
    · rw [if_pos h2, List.getElem?_append_left h2]
    · rw [if_neg h2, List.getElem?_append_right (by omega), List.getElem?_replicate]
      rw [if_pos (by omega)]
  · rw [if_neg h1, List.getElem?_append_right (by omega), hl]
    by_cases h2 : j < o + s.length
    · rw [if_pos h2, List.getElem?_append_left (by omega)]
    · rw [if_neg h2, List.getElem?_append_right (by omega), List.getElem?_drop]
      congr 1
      omega

variable {ι : Type} [DecidableEq ι]

/-- What a process can be up to: it has not begun, or what it has put on the disk, what it has in the
buffer and what it has still to write together are its text. -/
inductive Proc.Stage (strOf : ℚ → Str) (w : Writer) : Proc → Prop
  | before : Stage strOf w ⟨w.program strOf, [], 0⟩
  | during (rest : List Str) (b : Str) (o : ℕ) : o ≤ (w.output strOf).1.length →
      (w.output strOf).1.drop o = b ++ rest.flatten →
      Stage strOf w ⟨rest.map .write ++ [.closeFile], b, o⟩
  | after : Stage strOf w ⟨[], [], (w.output strOf).1.length⟩

/-- The file holds the characters of `T` up to position `o`. -/
def Holds (t T : Str) (o : ℕ) : Prop := ∀ j, j < o → t[j]? = T[j]?

theorem Holds.writeAt {t T s : Str} {o o' : ℕ} (h : Holds t T o) (ho : o ≤ t.length)
    (hs : T.drop o' = s ++ T.drop (o' + s.length)) : Holds (writeAt t o' s) T o := by
  intro j hj
  rw [writeAt_get]
  split
  · rw [if_pos (by omega)]
    exact h j hj
  · split
    · have : (T.drop o')[j - o']? = T[j]? := by
        rw [List.getElem?_drop]
        congr 1
        omega
      rw [← this, hs, List.getElem?_append_left (by omega)]
    · exact h j hj

/-- The invariant: every process is at some stage, and once one has opened the file, the last one to
have done so finds everything up to its position as it should be. -/
structure Together (strOf : ℚ → Str) (w : ι → Writer) (T : Str) (s : Shared ι) : Prop where
  stage : ∀ i, (s.proc i).Stage strOf (w i)
  last : (∀ i, (s.proc i).todo = (w i).program strOf) ∨
    ∃ i t, s.content = some t ∧ (s.proc i).todo ≠ (w i).program strOf ∧
      Holds t T (s.proc i).offset ∧ (s.proc i).offset ≤ t.length ∧ t.length ≤ T.length

section

variable {strOf : ℚ → Str} {w : Writer} {p : Proc}

theorem Proc.Stage.openFile (h : p.Stage strOf w) {r : List Op} {b : Str} {o : ℕ}
    (hp : p = ⟨.openFile :: r, b, o⟩) :
    Proc.Stage strOf w ⟨r, [], 0⟩ ∧ r ≠ w.program strOf := by
  cases h with
  | before =>
    simp only [Writer.program, List.cons_append, Proc.mk.injEq, List.cons.injEq, true_and] at hp
    rw [← hp.1]
    refine ⟨.during _ [] 0 (Nat.zero_le _) ?_, ?_⟩
    · rw [List.drop_zero, List.nil_append, calls_flatten]
    · intro h
      have := congrArg List.length h
      simp [Writer.program] at this
  | during rest b o =>
    cases rest <;> simp at hp
  | after => simp at hp

theorem Proc.Stage.write (h : p.Stage strOf w) {s : Str} {r : List Op} {b : Str} {o : ℕ}
    (hp : p = ⟨.write s :: r, b, o⟩) :
    Proc.Stage strOf w ⟨r, b ++ s, o⟩ ∧ r ≠ w.program strOf := by
  cases h with
  | before => simp [Writer.program] at hp
  | during rest b o ho hd =>
    cases rest with
    | nil => simp at hp
    | cons x rest =>
      simp only [List.map_cons, List.cons_append, Proc.mk.injEq, List.cons.injEq, Op.write.injEq]
        at hp
      obtain ⟨⟨rfl, rfl⟩, rfl, rfl⟩ := hp
      refine ⟨.during rest _ _ ho (by simp [hd]), ?_⟩
      cases rest <;> simp [Writer.program]
  | after => simp at hp

theorem Proc.Stage.flush (h : p.Stage strOf w) {r : List Op} {b b' : Str} {o : ℕ}
    (hp : p = ⟨r, b ++ b', o⟩) :
    Proc.Stage strOf w ⟨r, b', o + b.length⟩ ∧ o + b.length ≤ (w.output strOf).1.length ∧
      (w.output strOf).1.drop o = b ++ (w.output strOf).1.drop (o + b.length) := by
  cases h with
  | before =>
    simp only [Proc.mk.injEq] at hp
    obtain ⟨rfl, hb, rfl⟩ := hp
    obtain ⟨rfl, rfl⟩ := List.append_eq_nil_iff.1 hb.symm
    exact ⟨.before, Nat.zero_le _, by simp⟩
  | during rest c o ho hd =>
    simp only [Proc.mk.injEq] at hp
    obtain ⟨rfl, rfl, rfl⟩ := hp
    have hl := congrArg List.length hd
    rw [List.length_drop, List.append_assoc, List.length_append] at hl
    have hle : o + b.length ≤ (w.output strOf).1.length := by omega
    have h2 : (w.output strOf).1.drop (o + b.length) = b' ++ rest.flatten := by
      rw [← List.drop_drop, hd, List.append_assoc, List.drop_left]
    exact ⟨.during rest _ _ hle h2, hle, by rw [h2, hd, List.append_assoc]⟩
  | after =>
    simp only [Proc.mk.injEq] at hp
    obtain ⟨rfl, hb, rfl⟩ := hp
    obtain ⟨rfl, rfl⟩ := List.append_eq_nil_iff.1 hb.symm
    exact ⟨.after, le_rfl, by simp⟩

theorem Proc.Stage.closeFile (h : p.Stage strOf w) {r : List Op} {b : Str} {o : ℕ}
    (hp : p = ⟨.closeFile :: r, b, o⟩) :
    Proc.Stage strOf w ⟨r, [], o + b.length⟩ ∧ r ≠ w.program strOf ∧
      o + b.length ≤ (w.output strOf).1.length ∧
      (w.output strOf).1.drop o = b ++ (w.output strOf).1.drop (o + b.length) := by
  have hf := h.flush (b := b) (b' := []) (by simpa using hp)
  cases h with
  | before => simp [Writer.program] at hp
  | during rest c o ho hd =>
    cases rest with
    | cons => simp at hp
    | nil =>
      simp only [List.map_nil, List.nil_append, Proc.mk.injEq, List.cons.injEq, true_and] at hp
      obtain ⟨rfl, rfl, rfl⟩ := hp
      refine ⟨?_, by simp [Writer.program], hf.2⟩
      have hl := congrArg List.length hd
      simp at hl
      have : o + c.length = (w.output strOf).1.length := by omega
      rw [this]
      exact .after
  | after => simp at hp

end

theorem writeAt_bounds {t T s : Str} {o : ℕ} (ht : t.length ≤ T.length)
    (ho : o + s.length ≤ T.length) : (writeAt t o s).length ≤ T.length := by
  rw [writeAt_length]
  omega

theorem Together.step {strOf : ℚ → Str} {w : ι → Writer} {T : Str}
    (hT : ∀ i, ((w i).output strOf).1 = T) {s s' : Shared ι} (h : Together strOf w T s)
    (hs : s.Step s') : Together strOf w T s' := by
  -- one process writes `b` at its position
  have put : ∀ (i : ι) (t : Str) (p : ι → Proc) (b : Str) (q : Proc),
      Together strOf w T ⟨some t, p⟩ → q.Stage strOf (w i) →
      q.offset = (p i).offset + b.length → q.offset ≤ T.length →
      T.drop (p i).offset = b ++ T.drop ((p i).offset + b.length) →
      (q.todo = (w i).program strOf ↔ (p i).todo = (w i).program strOf) →
      Together strOf w T ⟨some (writeAt t (p i).offset b), Function.update p i q⟩ := by
    intro i t p b q h hq ho hle hb hiff
    refine ⟨fun j => ?_, ?_⟩
    · by_cases hj : j = i
      · subst hj
        simpa using hq
      · simpa [hj] using h.stage j
    · rcases h.last with h0 | ⟨k, t', h3, h4, h5, h6, h7⟩
      · refine .inl fun j => ?_
        by_cases hj : j = i
        · subst hj
          simpa using hiff.2 (h0 j)
        · simpa [hj] using h0 j
      · simp only [Option.some.injEq] at h3
        subst h3
        simp only at h4 h5 h6
        refine .inr ⟨k, _, rfl, ?_⟩
        by_cases hk : k = i
        · subst hk
          simp only [Function.update_self, ho]
          refine ⟨fun e => h4 (hiff.1 e), fun j hj => ?_, ?_, writeAt_bounds h7 (ho ▸ hle)⟩
          · rw [writeAt_get]
            split
            · rw [if_pos (by omega)]
              exact h5 j (by assumption)
            · have : (T.drop (p k).offset)[j - (p k).offset]? = T[j]? := by
                rw [List.getElem?_drop]
                congr 1
                omega
              rw [← this, hb, List.getElem?_append_left (by omega)]
          · rw [writeAt_length]
            omega
        · simp only [Function.update_of_ne hk]
          refine ⟨h4, h5.writeAt h6 hb, ?_, writeAt_bounds h7 (ho ▸ hle)⟩
          rw [writeAt_length]
          omega
  cases hs with
  | openFile i c p r b o hp =>
    obtain ⟨h1, h2⟩ := (h.stage i).openFile hp
    refine ⟨fun j => ?_, .inr ⟨i, [], rfl, ?_, ?_, ?_, Nat.zero_le _⟩⟩
    · by_cases hj : j = i
      · subst hj
        simpa using h1
      · simpa [hj] using h.stage j
    · simpa using h2
    · simp [Holds]
    · simp
  | write i c p x r b o hp =>
    obtain ⟨h1, h2⟩ := (h.stage i).write hp
    have hne : (p i).todo ≠ (w i).program strOf := by
      rw [hp]
      simp [Writer.program]
    refine ⟨fun j => ?_, ?_⟩
    · by_cases hj : j = i
      · subst hj
        simpa using h1
      · simpa [hj] using h.stage j
    · rcases h.last with h0 | ⟨k, t, h3, h4, h5, h6, h7⟩
      · exact absurd (h0 i) hne
      · refine .inr ⟨k, t, h3, ?_⟩
        by_cases hk : k = i
        · subst hk
          simp only [hp] at h5 h6
          simpa using ⟨h2, h5, h6, h7⟩
        · simpa [hk] using ⟨h4, h5, h6, h7⟩
  | flush i t p r b b' o hp =>
    obtain ⟨h1, h2, h3⟩ := (h.stage i).flush hp
    rw [hT] at h2 h3
    have := put i t p b _ h h1 (by simp [hp]) h2 (by simpa [hp] using h3) (by simp [hp])
    simpa [hp] using this
  | closeFile i t p r b o hp =>
    obtain ⟨h1, h2, h3, h4⟩ := (h.stage i).closeFile hp
    rw [hT] at h3 h4
    have := put i t p b _ h h1 (by simp [hp]) h3 (by simpa [hp] using h4)
      (by simpa [hp, Writer.program] using h2)
    simpa [hp] using this

theorem together_start (strOf : ℚ → Str) (w : ι → Writer) (T : Str) (c : Option Str) :
    Together strOf w T ⟨c, fun i => ⟨(w i).program strOf, [], 0⟩⟩ :=
  ⟨fun _ => .before, .inl fun _ => rfl⟩

/-- All calls of one process, with the buffer kept. -/
theorem run_calls (i : ι) (c : Option Str) (l : List Str) (p : ι → Proc) (b : Str) (o : ℕ)
    (hp : p i = ⟨l.map .write ++ [.closeFile], b, o⟩) :
    Relation.ReflTransGen Shared.Step ⟨c, p⟩
      ⟨c, Function.update p i ⟨[.closeFile], b ++ l.flatten, o⟩⟩ := by
  induction l generalizing p b with
  | nil =>
    have : Function.update p i ⟨[.closeFile], b ++ ([] : List Str).flatten, o⟩ = p := by
      rw [List.flatten_nil, List.append_nil]
      simp only [List.map_nil, List.nil_append] at hp
      rw [← hp, Function.update_eq_self]
    rw [this]
  | cons x l ih =>
    refine Relation.ReflTransGen.head (.write i c p x (l.map .write ++ [.closeFile]) b o
      (by simpa using hp)) ?_
    have := ih (Function.update p i ⟨l.map .write ++ [.closeFile], b ++ x, o⟩) (b ++ x) (by simp)
    simpa using this

/-! ### C123 -/

/-- **C123 (partial).** However many processes save the same text to one file at the same time, and
in whatever order their steps fall, the file holds that text when all are done.  Missing: processes
with different texts, where the claim is false. -/
theorem C123_same_text_partial [Nonempty ι] (strOf : ℚ → Str) (w : ι → Writer) (T : Str)
    (hT : ∀ i, ((w i).output strOf).1 = T) (c c' : Option Str)
    (h : SavedTogether strOf w c c') : c' = some T := by
  obtain ⟨s, hs, hend, rfl⟩ := h
  have inv : Together strOf w T s := by
    clear hend
    induction hs with
    | refl => exact together_start strOf w T c
    | tail _ hs ih => exact ih.step hT hs
  have hoff : ∀ i, (s.proc i).offset = T.length := by
    intro i
    have h1 := inv.stage i
    have h2 := hend i
    generalize s.proc i = q at h1 h2
    cases h1 with
    | before => simp [Writer.program] at h2
    | during => simp at h2
    | after => exact congrArg List.length (hT i)
  rcases inv.last with h0 | ⟨i, t, ht, -, hh, h1, h2⟩
  · have i : ι := Classical.arbitrary ι
    have := (h0 i).symm.trans (hend i)
    simp [Writer.program] at this
  · rw [ht, Option.some.injEq]
    rw [hoff] at hh h1
    refine List.ext_getElem? fun j => ?_
    by_cases hj : j < T.length
    · exact hh j hj
    · rw [List.getElem?_eq_none (by omega), List.getElem?_eq_none (by omega)]

/-- **C123 (failure).** Two processes that save different texts to one file at the same time can
leave the one followed by the rest of the other, whatever the texts are. -/
theorem C123_mixture (strOf : ℚ → Str) (w : Bool → Writer) (c : Option Str) :
    SavedTogether strOf w c (some (((w false).output strOf).1 ++
      ((w true).output strOf).1.drop ((w false).output strOf).1.length)) := by
  set a := ((w false).output strOf).1 with ha
  set b := ((w true).output strOf).1 with hb
  set p₀ : Bool → Proc := fun i => ⟨(w i).program strOf, [], 0⟩ with hp₀
  set p₁ : Bool → Proc := Function.update p₀ false
    ⟨((w false).calls strOf).1.map .write ++ [.closeFile], [], 0⟩ with hp₁
  set p₂ : Bool → Proc := Function.update p₁ true
    ⟨((w true).calls strOf).1.map .write ++ [.closeFile], [], 0⟩ with hp₂
  have s1 : Shared.Step ⟨c, p₀⟩ ⟨some [], p₁⟩ := .openFile false c p₀ _ [] 0 rfl
  have s2 : Shared.Step ⟨some [], p₁⟩ ⟨some [], p₂⟩ := .openFile true _ p₁ _ [] 0 rfl
  have r1 := run_calls true (some []) _ p₂ [] 0 rfl
  rw [List.nil_append, calls_flatten, ← hb] at r1
  set p₃ : Bool → Proc := Function.update p₂ true ⟨[.closeFile], b, 0⟩ with hp₃
  have s3 : Shared.Step ⟨some [], p₃⟩ _ := .closeFile true [] p₃ [] b 0 (by simp [hp₃])
  have e1 : writeAt [] 0 b = b := by simp [writeAt]
  rw [e1] at s3
  set p₄ : Bool → Proc := Function.update p₃ true ⟨[], [], 0 + b.length⟩ with hp₄
  have r2 := run_calls false (some b) ((w false).calls strOf).1 p₄ [] 0 rfl
  rw [List.nil_append, calls_flatten, ← ha] at r2
  set p₅ : Bool → Proc := Function.update p₄ false ⟨[.closeFile], a, 0⟩ with hp₅
  have s4 : Shared.Step ⟨some b, p₅⟩ _ := .closeFile false b p₅ [] a 0 (by simp [hp₅])
  have e2 : writeAt b 0 a = a ++ b.drop a.length := by simp [writeAt]
  rw [e2] at s4
  refine ⟨_, (((((Relation.ReflTransGen.single s1).tail s2).trans r1).tail s3).trans r2).tail s4,
    ?_, rfl⟩
  rintro (_ | _) <;> simp [hp₅, hp₄]

/-- Two files with a title only: what is left is neither of them. -/
def twoTitles : Bool → Writer
  | true => Writer.new "a".toList (some "long title".toList)
  | false => Writer.new "a".toList (some "short".toList)

example : SavedTogether (fun _ => []) twoTitles none (some "short\n===============".toList) := by
  have h := C123_mixture (fun _ => []) twoTitles none
  have e : ((twoTitles false).output fun _ => []).1 ++
      ((twoTitles true).output fun _ => []).1.drop
        ((twoTitles false).output fun _ => []).1.length = "short\n===============".toList := by
    decide +kernel
  rwa [e] at h

/-- The hypotheses are met: a title saved twice at the same time. -/
example : SavedTogether (fun _ => []) (fun _ : Bool => twoTitles true) none
    (some "long title\n==========".toList) := by
  have h := C123_mixture (fun _ => []) (fun _ => twoTitles true) none
  have e : ((twoTitles true).output fun _ => []).1 ++
      ((twoTitles true).output fun _ => []).1.drop
        ((twoTitles true).output fun _ => []).1.length = "long title\n==========".toList := by
    decide +kernel
  rwa [e] at h

end Celest.Text
