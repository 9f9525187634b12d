/-
C125: units with fractional powers.
-/
import Verif.Units.LemmasFractionalStr
import Verif.Units.Registry
import Verif.Rounding

namespace Celest.Units.Frac

open Celest.Text (Str natStr natStr_digits)

/-! ### Integer powers -/

section
variable (fl : ℚ → ℚ)

/-- Integer powers as Python numbers. -/
def lift (l : List (NamedUnit × ℤ)) : List (NamedUnit × Num) := l.map fun b => (b.1, .int b.2)

/-- A unit object with integer powers. -/
def liftUnit : BUnit → FUnit
  | .named n => .named n
  | .compound c => .compound ⟨c.scale, lift c.bases, c.unity⟩

theorem lift_hasId (i : ℕ) (l : List (NamedUnit × ℤ)) :
    hasId i (lift l) = Units.hasId i l := by
  simp [hasId, Units.hasId, lift, List.any_map, Function.comp_def]

theorem int_value_eq_zero (a b : ℤ) : ((Num.int a).add fl (.int b)).value = 0 ↔ a + b = 0 := by
  simp only [Num.add, Num.value]
  exact_mod_cast Iff.rfl

theorem lift_handleRepeated (l : List (NamedUnit × ℤ)) (b : NamedUnit) (p : ℤ) :
    handleRepeated fl (lift l) b (.int p) = lift (Units.handleRepeated l b p) := by
  induction l with
  | nil => rfl
  | cons a l ih =>
    obtain ⟨a, q⟩ := a
    change handleRepeated fl ((a, .int q) :: lift l) b (.int p) = _
    rw [handleRepeated, Units.handleRepeated]
    by_cases h : a.id = b.id
    · rw [if_pos h, if_pos h]
      by_cases h0 : q + p = 0
      · rw [if_pos ((int_value_eq_zero fl q p).2 h0), if_pos h0]
      · rw [if_neg (fun h => h0 ((int_value_eq_zero fl q p).1 h)), if_neg h0]
        rfl
    · rw [if_neg h, if_neg h, ih]; rfl

theorem lift_addNested (k : ℤ) (l : List (NamedUnit × ℤ)) (b : NamedUnit × ℤ) :
    addNested fl (.int k) (lift l) (b.1, .int b.2) = lift (Units.addNested k l b) := by
  unfold addNested Units.addNested
  rw [lift_hasId]
  split_ifs
  · exact lift_handleRepeated fl l b.1 b.2
  · simp [lift, Num.mul]

theorem lift_foldl (k : ℤ) (c l : List (NamedUnit × ℤ)) :
    (lift c).foldl (addNested fl (.int k)) (lift l) = lift (c.foldl (Units.addNested k) l) := by
  induction c generalizing l with
  | nil => rfl
  | cons b c ih =>
    change (lift c).foldl _ (addNested fl (.int k) (lift l) (b.1, .int b.2)) = _
    rw [lift_addNested, ih]; rfl

theorem lift_collectStep (l : List (NamedUnit × ℤ)) (u : BUnit) (k : ℤ) :
    collectStep fl (lift l) (liftUnit u, .int k) = lift (Units.collectStep l (u, k)) := by
  cases u with
  | named n =>
    simp only [collectStep, Units.collectStep, liftUnit, lift_hasId]
    split_ifs
    · exact lift_handleRepeated fl l n k
    · simp [lift]
  | compound c => exact lift_foldl fl k c.bases l

theorem lift_parts (parts : List (BUnit × ℤ)) :
    expandAndCollect fl (parts.map fun b => (liftUnit b.1, .int b.2)) =
      lift (Units.expandAndCollect parts) := by
  have key : ∀ l, (parts.map fun b => (liftUnit b.1, Num.int b.2)).foldl (collectStep fl) (lift l) =
      lift (parts.foldl Units.collectStep l) := by
    induction parts with
    | nil => intro l; rfl
    | cons b parts ih =>
      intro l
      rw [List.map_cons, List.foldl_cons, List.foldl_cons, lift_collectStep, ih]
  exact key []

theorem lift_general (s : ℚ) (parts : List (BUnit × ℤ)) :
    (⟨(s : ℝ), expandAndCollect fl (parts.map fun b => (liftUnit b.1, .int b.2)),
      (expandAndCollect fl (parts.map fun b => (liftUnit b.1, Num.int b.2))).isEmpty⟩ : Compound) =
    ⟨(s : ℝ), lift (Units.expandAndCollect parts), (Units.expandAndCollect parts).isEmpty⟩ := by
  rw [lift_parts]
  simp [lift]

theorem lift_init_one (s : ℚ) (u : BUnit) (k : ℤ) :
    FUnit.compound (Compound.init fl (s : ℝ) [(liftUnit u, .int k)]) =
      liftUnit (.compound (Units.Compound.init s [(u, k)])) := by
  have hg := lift_general fl s [(u, k)]
  cases u with
  | compound c => exact congrArg _ hg
  | named n =>
    simp only [Compound.init, Units.Compound.init, liftUnit]
    by_cases h : 0 ≤ k
    · have h' : 0 ≤ (Num.int k).value := by simpa [Num.value] using h
      rw [if_pos h, if_pos h']
      by_cases h0 : k = 0
      · have h0' : (Num.int k).value = 0 := by simpa [Num.value] using h0
        rw [if_pos h0, if_pos h0']
        simp [lift]
      · have h0' : (Num.int k).value ≠ 0 := by simpa [Num.value] using h0
        rw [if_neg h0, if_neg h0']
        simp [lift, Num.value, Real.rpow_intCast]
    · have h' : ¬ 0 ≤ (Num.int k).value := by simpa [Num.value] using h
      rw [if_neg h, if_neg h']
      exact congrArg _ hg

theorem lift_init_two (s : ℚ) (u v : BUnit) (j k : ℤ) :
    FUnit.compound (Compound.init fl (s : ℝ) [(liftUnit u, .int j), (liftUnit v, .int k)]) =
      liftUnit (.compound (Units.Compound.init s [(u, j), (v, k)])) := by
  have hg := lift_general fl s [(u, j), (v, k)]
  cases u <;> exact congrArg _ hg

theorem lift_isUnity (u : BUnit) : (liftUnit u).isUnity = u.isUnity := by
  cases u <;> rfl

/-- The unit object of a formula with integer exponents is the one of the integer model. -/
theorem eval_ofInteger (e : UExpr) : (FExpr.ofInteger e).eval fl = liftUnit e.eval := by
  have h1 : (1 : ℝ) = ((1 : ℚ) : ℝ) := by norm_num
  induction e with
  | unit n => rfl
  | mul a b iha ihb =>
    simp only [FExpr.ofInteger, FExpr.eval, UExpr.eval, iha, ihb, FUnit.mul, BUnit.mul,
      lift_isUnity]
    split_ifs
    · rfl
    · rfl
    · rw [h1, lift_init_two]
  | div a b iha ihb =>
    simp only [FExpr.ofInteger, FExpr.eval, UExpr.eval, iha, ihb, FUnit.div, BUnit.div]
    rw [h1, lift_init_two]
  | inv a ih =>
    simp only [FExpr.ofInteger, FExpr.eval, UExpr.eval, ih, FUnit.inv, BUnit.inv]
    rw [h1, lift_init_one]
  | pow a k ih =>
    simp only [FExpr.ofInteger, FExpr.eval, UExpr.eval, ih, FUnit.pow, BUnit.pow]
    rw [h1, lift_init_one]
  | smul k a ih =>
    simp only [FExpr.ofInteger, FExpr.eval, UExpr.eval, ih, FUnit.smul, BUnit.smul]
    rw [lift_init_one]

/-- Named integer powers as Python numbers. -/
def liftNames {α : Type} (l : List (α × ℤ)) : List (α × Num) := l.map fun b => (b.1, .int b.2)

theorem abs_int_eq_one (k : ℤ) : |(k : ℚ)| = 1 ↔ k.natAbs = 1 := by
  rw [← Int.cast_abs, Int.abs_eq_natAbs]
  norm_cast

theorem lift_fraction (fs : ℚ → Str) (pre : Str) (l : List (Str × ℤ)) :
    fraction pre (numTokens fs (liftNames l)) (denTokens fs (liftNames l)) =
      Units.fraction pre l := by
  have ht : ∀ a : Str, ∀ k : ℤ, token fs a (.int k) = Units.token a k := by
    intro a k
    simp only [token, Units.token, Num.value, Num.absText, abs_int_eq_one]
  have hn : numTokens fs (liftNames l) = Units.numTokens l := by
    unfold numTokens Units.numTokens liftNames
    rw [List.filter_map, List.map_map]
    have : ((fun b : Str × Num => decide (0 < b.2.value)) ∘ fun b : Str × ℤ => (b.1, Num.int b.2)) =
        fun b : Str × ℤ => decide (0 < b.2) := by
      funext b
      simp [Num.value]
    rw [this]
    exact List.map_congr_left fun b _ => ht _ _
  have hd : denTokens fs (liftNames l) = Units.denTokens l := by
    unfold denTokens Units.denTokens liftNames
    rw [List.filter_map, List.map_map]
    have : ((fun b : Str × Num => decide (¬ 0 < b.2.value)) ∘
        fun b : Str × ℤ => (b.1, Num.int b.2)) = fun b : Str × ℤ => decide (¬ 0 < b.2) := by
      funext b
      simp [Num.value]
    rw [this]
    exact List.map_congr_left fun b _ => ht _ _
  rw [hn, hd]; rfl

theorem lift_bases (u : BUnit) : (liftUnit u).bases = liftNames u.bases := by
  cases u <;> simp [FUnit.bases, BUnit.bases, liftUnit, liftNames, Compound.names, lift,
    Function.comp_def]

theorem lift_addDimension (l : List (Char × ℤ)) (d : Char) (p : ℤ) :
    addDimension fl (liftNames l) d (.int p) = (Units.addDimension l d p).map liftNames := by
  induction l with
  | nil => rfl
  | cons a l ih =>
    obtain ⟨a, q⟩ := a
    change addDimension fl ((a, .int q) :: liftNames l) d (.int p) = _
    rw [addDimension, Units.addDimension]
    by_cases h : a = d
    · rw [if_pos h, if_pos h]
      by_cases h0 : q + p = 0
      · rw [if_pos ((int_value_eq_zero fl q p).2 h0), if_pos h0]; rfl
      · rw [if_neg (fun h => h0 ((int_value_eq_zero fl q p).1 h)), if_neg h0]
        rfl
    · rw [if_neg h, if_neg h, ih]
      cases Units.addDimension l d p <;> rfl

theorem lift_dimensionsFrom (l : List (Str × ℤ)) (acc : List (Char × ℤ)) :
    dimensionsFrom fl (liftNames l) (liftNames acc) =
      (Units.dimensionsFrom l acc).map liftNames := by
  induction l generalizing acc with
  | nil => rfl
  | cons b l ih =>
    obtain ⟨name, p⟩ := b
    change dimensionsFrom fl ((name, .int p) :: liftNames l) (liftNames acc) = _
    rw [dimensionsFrom, Units.dimensionsFrom]
    cases dimensionDictionary.lookup name with
    | none => rfl
    | some d =>
      dsimp only
      rw [lift_addDimension]
      cases Units.addDimension acc d p with
      | error e => rfl
      | ok acc' => exact ih acc'

theorem lift_dimension (fs : ℚ → Str) (u : BUnit) :
    (liftUnit u).dimension fl fs = u.dimension := by
  unfold FUnit.dimension BUnit.dimension BUnit.dimensions
  rw [lift_bases]
  have h := lift_dimensionsFrom fl u.bases []
  change dimensionsFrom fl (liftNames u.bases) [] = _ at h
  rw [h]
  cases Units.dimensionsFrom u.bases [] with
  | error e => rfl
  | ok r =>
    simp only [Except.map]
    have : (liftNames r).map (fun b => (([b.1] : Str), b.2)) =
        liftNames (r.map fun b => (([b.1] : Str), b.2)) := by
      simp [liftNames, Function.comp_def]
    rw [this, lift_fraction]

theorem lift_repr {fr : ℝ → Str} {fs' : ℚ → Str} (hfr : ∀ q : ℚ, fr q = fs' q) (fs : ℚ → Str)
    (u : BUnit) : (liftUnit u).repr fr fs = u.repr fs' := by
  cases u with
  | named n => rfl
  | compound c =>
    have hn : (⟨(c.scale : ℝ), lift c.bases, c.unity⟩ : Compound).names =
        liftNames (c.bases.map fun b => (b.1.name, b.2)) := by
      simp [Compound.names, lift, liftNames, Function.comp_def]
    have hs : (if (c.scale : ℝ) = 1 then [] else fr c.scale ++ [' ']) =
        if c.scale = 1 then [] else fs' c.scale ++ [' '] := by
      rw [hfr]
      by_cases h : c.scale = 1
      · rw [if_pos h, if_pos (by exact_mod_cast h)]
      · rw [if_neg h, if_neg (by exact_mod_cast h)]
    have e : (⟨(c.scale : ℝ), lift c.bases, c.unity⟩ : Compound).str fr fs = c.str fs' := by
      unfold Compound.str Units.Compound.str
      rw [hn, lift_fraction]
      dsimp only
      rw [hs]
    rw [liftUnit, repr_compound, Units.repr_compound, e]

theorem lift_unitScale (u : BUnit) : unitScale (liftUnit u) = (Units.unitScale u : ℝ) := by
  cases u with
  | named n => rfl
  | compound c =>
    simp only [liftUnit, unitScale, Units.unitScale, lift, List.map_map, Rat.cast_list_prod]
    congr 1
    apply List.map_congr_left
    intro b _
    simp [Num.value, Real.rpow_intCast]

/-- C125 for integer powers: with them the library does what the theorems on integer powers say,
for every formula, number and outcome. -/
theorem C125_integer_powers_partial {fr : ℝ → Str} {fs' : ℚ → Str} (hfr : ∀ q : ℚ, fr q = fs' q)
    (fs : ℚ → Str) (x : ℚ) (e e' : UExpr) :
    convert fl fr fs (x : ℝ) ((FExpr.ofInteger e).eval fl) ((FExpr.ofInteger e').eval fl) =
      ((Quantity.mk x e.eval).to fs' e'.eval).map (Rat.cast : ℚ → ℝ) := by
  rw [eval_ofInteger, eval_ofInteger]
  generalize e.eval = u
  generalize e'.eval = v
  unfold convert Quantity.to Quantity.convertTo
  rw [lift_dimension, lift_dimension, lift_repr hfr, lift_repr hfr, lift_unitScale, lift_unitScale]
  dsimp only
  cases u.dimension with
  | error e => rfl
  | ok d =>
    cases v.dimension with
    | error e => rfl
    | ok d' =>
      dsimp only
      by_cases hd : d = d'
      · have hd2 : ¬ d ≠ d' := not_not.2 hd
        rw [if_neg hd2, if_neg hd2]
        by_cases hr : u.repr fs' = v.repr fs'
        · have hr2 : ¬ u.repr fs' ≠ v.repr fs' := not_not.2 hr
          rw [if_neg hr2, if_neg hr2]; rfl
        · rw [if_pos hr, if_pos hr]
          by_cases h0 : Units.unitScale v = 0
          · rw [if_pos h0, if_pos (by exact_mod_cast h0)]; rfl
          · rw [if_neg h0, if_neg (by exact_mod_cast h0)]
            simp [Except.map]
      · rw [if_pos hd, if_pos hd]; rfl

end

/-! ### Fractional powers -/

section
variable {S : List NamedUnit} (hS : UnitSystem S) (hL : DistinctLetters S) {fs : ℚ → Str}
  (hfs : FloatText fs) {fr : ℝ → Str} (hfr : ScaleText fr)

include hS hL hfs hfr in
theorem convert_eq (fl : ℚ → ℚ) (x : ℝ) {u v : FUnit} (hu : Good S u) (hv : Good S v) {d d' : Str}
    (hd : u.dimension fl fs = .ok d) (hd' : v.dimension fl fs = .ok d') :
    convert fl fr fs x u v =
      if d = d' then .ok (x * (unitScale u / unitScale v)) else .error .valueError := by
  have hpos := unitScale_pos hS hv
  unfold convert
  rw [hd, hd']
  dsimp only
  by_cases h : d = d'
  · rw [if_neg (by simpa using h), if_pos h]
    by_cases hr : u.repr fr fs = v.repr fr fs
    · rw [if_neg (by simpa using hr), unitScale_of_repr hS hL hfs hfr hu hv hr, div_self hpos.ne',
        mul_one]
    · rw [if_pos hr, if_neg hpos.ne']
  · rw [if_pos h, if_neg h]

include hS hL hfs hfr in
/-- C125, for exact exponent arithmetic and formulas without numeric multiples and without the
quotients of C33: a conversion that returns relates units of one dimension, and the new number
times the new unit's factor is the old number times the old unit's factor.  Missing: that the
conversion returns (see the next theorems). -/
theorem C125_conversion_partial (e e' : FExpr) (he : ∀ n ∈ e.atoms, n ∈ S)
    (he' : ∀ n ∈ e'.atoms, n ∈ S) (hs : e.Safe) (hs' : e'.Safe) (x y : ℝ)
    (h : convert id fr fs x (e.eval id) (e'.eval id) = .ok y) :
    y * e'.factor = x * e.factor ∧ ∀ d, e.dim d = e'.dim d := by
  have gu := eval_good e he
  have gv := eval_good e' he'
  cases hd : (e.eval id).dimension id fs with
  | error r => rw [convert, hd] at h; cases h
  | ok d =>
  cases hd' : (e'.eval id).dimension id fs with
  | error r => rw [convert, hd, hd'] at h; cases h
  | ok d' =>
  rw [convert_eq hS hL hfs hfr id x gu gv hd hd'] at h
  split_ifs at h with hdd
  subst hdd
  constructor
  · have hp := unitScale_pos hS gv
    rw [← unitScale_eval hS e he hs, ← unitScale_eval hS e' he' hs', ← Except.ok.inj h]
    field_simp
  · intro c
    rw [← dim_eval hS e he hs, ← dim_eval hS e' he' hs']
    exact dim_of_dimension hS hfs gu gv hd hd' c

/-! ### Powers of a named unit -/

theorem fraction_single (fs : ℚ → Str) (fl : ℚ → ℚ) (s : ℝ) (n : NamedUnit) (p : Num) (b : Bool)
    {d : Char} (hd : dimensionDictionary.lookup n.name = some d) :
    (FUnit.compound ⟨s, [(n, p)], b⟩).dimension fl fs =
      .ok (fraction [] (numTokens fs [([d], p)]) (denTokens fs [([d], p)])) := by
  simp [FUnit.dimension, FUnit.bases, Compound.names, dimensionsFrom, hd, addDimension, Except.map]

include hfs in
theorem absText_alike {p q : Num} (h : p.absText fs = q.absText fs) :
    (∃ j k : ℤ, p = .int j ∧ q = .int k) ∨ ∃ x y : ℚ, p = .float x ∧ q = .float y := by
  cases p with
  | int m =>
    cases q with
    | int n => exact Or.inl ⟨m, n, rfl, rfl⟩
    | float y =>
      exfalso
      obtain ⟨c, hc, hd⟩ := hfs.mark _ (abs_nonneg y)
      have h' : natStr m.natAbs = fs |y| := h
      rw [← h'] at hc
      rw [natStr_digits _ c hc] at hd
      cases hd
  | float x =>
    cases q with
    | int n =>
      exfalso
      obtain ⟨c, hc, hd⟩ := hfs.mark _ (abs_nonneg x)
      have h' : fs |x| = natStr n.natAbs := h
      rw [h'] at hc
      rw [natStr_digits _ c hc] at hd
      cases hd
    | float y => exact Or.inr ⟨x, y, rfl, rfl⟩

include hfs in
theorem alike_of_token {a b : Char} {p q : Num} (ha : a ∈ ['L', 'T', 'D', 'A'])
    (hb : b ∈ ['L', 'T', 'D', 'A']) (hv : |p.value| = |q.value| → p.value = q.value)
    (h : token fs [a] p = token fs [b] q) : a = b ∧ Alike p q := by
  obtain ⟨h1, h2⟩ := token_injective hfs names_of_letters ⟨a, ha, rfl⟩ ⟨b, hb, rfl⟩ h
  have hab : a = b := by simpa using h1
  subst hab
  refine ⟨rfl, ?_⟩
  have hpq := hv h2
  by_cases h1 : |p.value| = 1
  · exact Or.inr ⟨hpq, h1⟩
  · left
    have ht : powText fs p = powText fs q := List.append_cancel_left h
    unfold powText at ht
    rw [if_neg h1, if_neg (by rwa [← h2])] at ht
    rcases absText_alike hfs ht with ⟨j, k, rfl, rfl⟩ | ⟨y, z, rfl, rfl⟩
    · simp only [Num.value] at hpq
      have : j = k := by exact_mod_cast hpq
      rw [this]
    · simp only [Num.value] at hpq
      rw [hpq]

theorem token_of_alike {a : Str} {p q : Num} (h : Alike p q) : token fs a p = token fs a q := by
  rcases h with rfl | ⟨h1, h2⟩
  · rfl
  · rw [token, token, if_pos h2, if_pos (by rwa [← h1])]

theorem single_tokens (fs : ℚ → Str) (a : Str) (p : Num) :
    numTokens fs [(a, p)] = (if 0 < p.value then [token fs a p] else []) ∧
    denTokens fs [(a, p)] = (if 0 < p.value then [] else [token fs a p]) := by
  by_cases h : 0 < p.value
  · simp [numTokens, denTokens, h]
  · simp [numTokens, denTokens, h, not_lt.1 h]

include hfs in
/-- When the dimension strings of two single powers agree. -/
theorem single_dimension_iff {a b : Char} {p q : Num} (ha : a ∈ ['L', 'T', 'D', 'A'])
    (hb : b ∈ ['L', 'T', 'D', 'A']) :
    fraction [] (numTokens fs [([a], p)]) (denTokens fs [([a], p)]) =
      fraction [] (numTokens fs [([b], q)]) (denTokens fs [([b], q)]) ↔ a = b ∧ Alike p q := by
  constructor
  · intro h
    have hn : ∀ a ∈ ['L', 'T', 'D', 'A'], ∀ p : Num, NameTokens (numTokens fs [([a], p)]) ∧
        NameTokens (denTokens fs [([a], p)]) := by
      intro a ha p
      exact ⟨tokens_name hfs names_of_letters (fun p => 0 < p.value) _
        (by rintro _ hb; rw [List.mem_singleton] at hb; subst hb; exact ⟨a, ha, rfl⟩), tokens_name hfs names_of_letters (fun p => ¬ 0 < p.value) _
        (by rintro _ hb; rw [List.mem_singleton] at hb; subst hb; exact ⟨a, ha, rfl⟩)⟩
    obtain ⟨h1, h2⟩ := fraction_injective [] [] [] [] (Or.inl ⟨rfl, rfl⟩) (Or.inl ⟨rfl, rfl⟩)
      _ _ _ _ (hn a ha p).1 (hn a ha p).2 (hn b hb q).1 (hn b hb q).2 h
    rw [(single_tokens fs [a] p).1, (single_tokens fs [b] q).1] at h1
    rw [(single_tokens fs [a] p).2, (single_tokens fs [b] q).2] at h2
    by_cases hp : 0 < p.value
    · by_cases hq : 0 < q.value
      · rw [if_pos hp, if_pos hq] at h1
        exact alike_of_token hfs ha hb (fun h => by rwa [abs_of_pos hp, abs_of_pos hq] at h)
          (by simpa using h1)
      · rw [if_pos hp, if_neg hq] at h1; simp at h1
    · by_cases hq : 0 < q.value
      · rw [if_neg hp, if_pos hq] at h1; simp at h1
      · rw [if_neg hp, if_neg hq] at h2
        refine alike_of_token hfs ha hb (fun h => ?_) (by simpa using h2)
        rw [abs_of_nonpos (not_lt.1 hp), abs_of_nonpos (not_lt.1 hq)] at h
        linarith
  · rintro ⟨rfl, h⟩
    have hv : p.value = q.value := by
      rcases h with rfl | h
      · rfl
      · exact h.1
    rw [(single_tokens fs [a] p).1, (single_tokens fs [a] q).1, (single_tokens fs [a] p).2,
      (single_tokens fs [a] q).2, token_of_alike h, hv]

/-- A unit object listing the single power `n ** p`. -/
def IsPower (u : FUnit) (n : NamedUnit) (p : Num) : Prop :=
  ∃ s : ℝ, u = .compound ⟨s, [(n, p)], false⟩

theorem pow_named (fl : ℚ → ℚ) (n : NamedUnit) (p : Num) (hp : p.value ≠ 0) :
    IsPower (FUnit.pow fl (.named n) p) n p := by
  by_cases h : 0 ≤ p.value
  · refine ⟨1 * (n.scale : ℝ) ^ (p.value : ℝ), ?_⟩
    simp only [FUnit.pow, Compound.init]
    rw [if_pos h, if_neg hp]
  · refine ⟨1, ?_⟩
    simp only [FUnit.pow, Compound.init]
    rw [if_neg h]
    simp [expandAndCollect, collectStep, hasId]

theorem pow_pow (fl : ℚ → ℚ) (n : NamedUnit) (p q : Num) (hp : p.value ≠ 0) :
    IsPower (FUnit.pow fl (FUnit.pow fl (.named n) p) q) n (p.mul fl q) := by
  obtain ⟨s, hs⟩ := pow_named fl n p hp
  refine ⟨1, ?_⟩
  rw [hs]
  simp [FUnit.pow, Compound.init, expandAndCollect, collectStep, addNested, hasId]

theorem pow_mul_pow (fl : ℚ → ℚ) (n : NamedUnit) (p q : Num) (hp : p.value ≠ 0) (hq : q.value ≠ 0)
    (hx : p.mul fl (.int 1) = p) (h0 : (p.add fl q).value ≠ 0) :
    IsPower ((FUnit.pow fl (.named n) p).mul fl (FUnit.pow fl (.named n) q)) n (p.add fl q) := by
  obtain ⟨s, hs⟩ := pow_named fl n p hp
  obtain ⟨t, ht⟩ := pow_named fl n q hq
  refine ⟨1, ?_⟩
  rw [hs, ht]
  simp [FUnit.mul, FUnit.isUnity, Compound.init, expandAndCollect, collectStep, addNested, hasId,
    handleRepeated, hx, h0]

theorem isPower_good {u : FUnit} {n : NamedUnit} {p : Num} (h : IsPower u n p) (hn : n ∈ S) :
    Good S u := by
  obtain ⟨s, rfl⟩ := h
  refine ⟨?_, by simp [NodupIds], by simp⟩
  intro x hx
  have : x = (n, p) := by simpa using hx
  rw [this]; exact hn

include hS hL hfs hfr in
theorem convert_power (fl : ℚ → ℚ) (x : ℝ) {u v : FUnit} {n m : NamedUnit} {p q : Num}
    (hn : n ∈ S) (hm : m ∈ S) (hu : IsPower u n p) (hv : IsPower v m q) :
    (SameKind n m ∧ Alike p q → convert fl fr fs x u v =
      .ok (x * ((n.scale : ℝ) ^ (p.value : ℝ) / (m.scale : ℝ) ^ (p.value : ℝ)))) ∧
    (¬ (SameKind n m ∧ Alike p q) → convert fl fr fs x u v = .error .valueError) := by
  have gu := isPower_good hu hn
  have gv := isPower_good hv hm
  obtain ⟨a, ha, _⟩ := hS.dims n hn
  obtain ⟨b, hb, _⟩ := hS.dims m hm
  obtain ⟨s, rfl⟩ := hu
  obtain ⟨t, rfl⟩ := hv
  rw [convert_eq hS hL hfs hfr fl x gu gv (fraction_single fs fl s n p false ha)
    (fraction_single fs fl t m q false hb)]
  have key := single_dimension_iff (fs := fs) hfs (p := p) (q := q) (dictionary_letters ha)
    (dictionary_letters hb)
  have hk : SameKind n m ↔ a = b := by
    unfold SameKind
    rw [ha, hb]; simp
  constructor
  · rintro ⟨h1, h2⟩
    have hv : p.value = q.value := by
      rcases h2 with rfl | h
      · rfl
      · exact h.1
    rw [if_pos (key.2 ⟨hk.1 h1, h2⟩)]
    simp [unitScale, hv]
  · intro h
    rw [if_neg]
    intro h'
    obtain ⟨h1, h2⟩ := key.1 h'
    exact h ⟨hk.2 h1, h2⟩

/-- The number Python computes from `p` and `q` for the exact result `v`: an integer if both are,
else the float `v` is rounded to. -/
def Computed (fl : ℚ → ℚ) (p q : Num) (v : ℚ) (s : Num) : Prop :=
  ((∃ a b, p = .int a ∧ q = .int b) → ∃ c : ℤ, s = .int c ∧ c = v) ∧
  ((¬ ∃ a b, p = .int a ∧ q = .int b) → s = .float (fl v))

theorem computed_float {fl : ℚ → ℚ} {p q : Num} {v w : ℚ} (hw : w = fl v)
    (h : ¬ ∃ a b, p = .int a ∧ q = .int b) : Computed fl p q v (.float w) :=
  ⟨fun h' => absurd h' h, fun _ => by rw [hw]⟩

theorem Computed.eq_add {fl : ℚ → ℚ} {p q s : Num}
    (h : Computed fl p q (p.value + q.value) s) : s = p.add fl q := by
  cases p with
  | int a =>
    cases q with
    | int b =>
      obtain ⟨c, rfl, hc⟩ := h.1 ⟨a, b, rfl, rfl⟩
      have hc' : (c : ℚ) = (a : ℚ) + (b : ℚ) := hc
      have : c = a + b := by exact_mod_cast hc'
      rw [this]; rfl
    | float y => exact h.2 (by rintro ⟨_, _, _, h⟩; cases h)
  | float x => exact h.2 (by rintro ⟨_, _, h, _⟩; cases h)

theorem Computed.eq_mul {fl : ℚ → ℚ} {p q s : Num}
    (h : Computed fl p q (p.value * q.value) s) : s = p.mul fl q := by
  cases p with
  | int a =>
    cases q with
    | int b =>
      obtain ⟨c, rfl, hc⟩ := h.1 ⟨a, b, rfl, rfl⟩
      have hc' : (c : ℚ) = (a : ℚ) * (b : ℚ) := hc
      have : c = a * b := by exact_mod_cast hc'
      rw [this]; rfl
    | float y => exact h.2 (by rintro ⟨_, _, _, h⟩; cases h)
  | float x => exact h.2 (by rintro ⟨_, _, h, _⟩; cases h)

include hS hL hfs hfr in
/-- C125 for powers of named units, e.g. roots: `n ** p` converts to `m ** q` exactly if `n` and `m`
have the same dimension and the exponents are displayed alike; the factor is then the ratio of the
units to that power.  Otherwise `ValueError`, also for equal exponents of which one is an integer
and the other a float. -/
theorem C125_powers_partial (fl : ℚ → ℚ) (x : ℝ) (n m : NamedUnit) (hn : n ∈ S) (hm : m ∈ S)
    (p q : Num) (hp : p.value ≠ 0) (hq : q.value ≠ 0) :
    (SameKind n m ∧ Alike p q →
      convert fl fr fs x (FUnit.pow fl (.named n) p) (FUnit.pow fl (.named m) q) =
        .ok (x * ((n.scale : ℝ) ^ (p.value : ℝ) / (m.scale : ℝ) ^ (p.value : ℝ)))) ∧
    (¬ (SameKind n m ∧ Alike p q) →
      convert fl fr fs x (FUnit.pow fl (.named n) p) (FUnit.pow fl (.named m) q) =
        .error .valueError) :=
  convert_power hS hL hfs hfr fl x hn hm (pow_named fl n p hp) (pow_named fl m q hq)

include hS hL hfs hfr in
/-- C125 fails for equal exponents of different type: `n ** k` and `n ** float(k)` are not
convertible, for any integer `k` other than -1, 0 and 1. -/
theorem C125_integer_float_clash (fl : ℚ → ℚ) (x : ℝ) (n m : NamedUnit) (hn : n ∈ S) (hm : m ∈ S)
    (k : ℤ) (hk : 1 < |k|) :
    convert fl fr fs x (FUnit.pow fl (.named n) (.int k)) (FUnit.pow fl (.named m) (.float k)) =
      .error .valueError := by
  have h0 : (k : ℚ) ≠ 0 := by
    intro h
    have : k = 0 := by exact_mod_cast h
    rw [this] at hk; simp at hk
  refine (C125_powers_partial hS hL hfs hfr fl x n m hn hm (.int k) (.float k) h0 h0).2 ?_
  rintro ⟨_, h | ⟨_, h⟩⟩
  · cases h
  · have h' : |(k : ℚ)| = 1 := h
    have : |k| = 1 := by exact_mod_cast h'
    omega

include hS hL hfs hfr in
/-- C125 for a power of a power: it is the power with the product of the exponents, rounded unless
both are integers. -/
theorem C125_power_of_power_partial (fl : ℚ → ℚ) (x : ℝ) (n m : NamedUnit) (hn : n ∈ S) (hm : m ∈ S)
    (p q s r : Num) (hs : Computed fl p q (p.value * q.value) s) (hp : p.value ≠ 0)
    (hr : r.value ≠ 0) :
    (SameKind n m ∧ Alike s r →
      convert fl fr fs x (FUnit.pow fl (FUnit.pow fl (.named n) p) q) (FUnit.pow fl (.named m) r) =
        .ok (x * ((n.scale : ℝ) ^ (r.value : ℝ) / (m.scale : ℝ) ^ (r.value : ℝ)))) ∧
    (¬ (SameKind n m ∧ Alike s r) →
      convert fl fr fs x (FUnit.pow fl (FUnit.pow fl (.named n) p) q) (FUnit.pow fl (.named m) r) =
        .error .valueError) := by
  have h := convert_power hS hL hfs hfr fl x hn hm (pow_pow fl n p q hp) (pow_named fl m r hr)
  rw [← hs.eq_mul] at h
  refine ⟨fun ha => ?_, h.2⟩
  rw [h.1 ha]
  have : s.value = r.value := by
    rcases ha.2 with e | e
    · rw [e]
    · exact e.1
  rw [this]

include hS hL hfs hfr in
/-- C125 for a product of powers of one unit: it is the power with the sum of the exponents, rounded
unless both are integers.  The first exponent is not changed by rounding: a float that is one. -/
theorem C125_product_of_powers_partial (fl : ℚ → ℚ) (x : ℝ) (n m : NamedUnit) (hn : n ∈ S) (hm : m ∈ S)
    (p q s r : Num) (hs : Computed fl p q (p.value + q.value) s) (hp : p.value ≠ 0)
    (hq : q.value ≠ 0) (hr : r.value ≠ 0) (hx : ∀ y, p = .float y → fl y = y) (h0 : s.value ≠ 0) :
    (SameKind n m ∧ Alike s r →
      convert fl fr fs x ((FUnit.pow fl (.named n) p).mul fl (FUnit.pow fl (.named n) q))
        (FUnit.pow fl (.named m) r) =
        .ok (x * ((n.scale : ℝ) ^ (r.value : ℝ) / (m.scale : ℝ) ^ (r.value : ℝ)))) ∧
    (¬ (SameKind n m ∧ Alike s r) →
      convert fl fr fs x ((FUnit.pow fl (.named n) p).mul fl (FUnit.pow fl (.named n) q))
        (FUnit.pow fl (.named m) r) = .error .valueError) := by
  rw [hs.eq_add] at h0
  have h := convert_power hS hL hfs hfr fl x hn hm (pow_mul_pow fl n p q hp hq (by
      cases p with
      | int a => simp [Num.mul]
      | float y => simp [Num.mul, Num.value, hx y rfl]) h0)
    (pow_named fl m r hr)
  rw [← hs.eq_add] at h
  refine ⟨fun ha => ?_, h.2⟩
  rw [h.1 ha]
  have : s.value = r.value := by
    rcases ha.2 with e | e
    · rw [e]
    · exact e.1
  rw [this]

include hS hL hfs hfr in
/-- C125 for roots undone: if the rounded product of the exponents is 1, the power of the power
converts to the unit itself and any unit of its dimension, by the ratio of the two. -/
theorem C125_root_undone_partial (fl : ℚ → ℚ) (x : ℝ) (n m : NamedUnit) (hn : n ∈ S) (hm : m ∈ S)
    (hk : SameKind n m) (p q s : Num) (hs : Computed fl p q (p.value * q.value) s)
    (h1 : s.value = 1) (hp : p.value ≠ 0) :
    convert fl fr fs x (FUnit.pow fl (FUnit.pow fl (.named n) p) q) (.named m) =
      .ok (x * (n.scale / m.scale)) := by
  rw [hs.eq_mul] at h1
  clear hs s
  obtain ⟨s, hs⟩ := pow_pow fl n p q hp
  have gu := isPower_good ⟨s, hs⟩ hn
  obtain ⟨a, ha, _⟩ := hS.dims n hn
  obtain ⟨b, hb, c, hc, hcb⟩ := hS.dims m hm
  have hab : a = b := by
    unfold SameKind at hk
    rw [ha, hb] at hk; exact Option.some.inj hk
  have hd := fraction_single fs fl s n (p.mul fl q) false ha
  rw [← hs] at hd
  have hone : fraction [] (numTokens fs [(([a] : Str), p.mul fl q)])
      (denTokens fs [([a], p.mul fl q)]) = fraction [] (numTokens fs [([a], Num.int 1)])
      (denTokens fs [([a], Num.int 1)]) :=
    (single_dimension_iff hfs (dictionary_letters ha) (dictionary_letters ha)).2
      ⟨rfl, Or.inr ⟨by rw [h1, Num.one_value], by rw [h1]; norm_num⟩⟩
  have hd' : (FUnit.named m).dimension fl fs =
      .ok (fraction [] (numTokens fs [([a], .int 1)]) (denTokens fs [([a], .int 1)])) := by
    simp [FUnit.dimension, FUnit.bases, hc, dimensionsFrom, hcb, addDimension, Except.map, hab]
  rw [convert_eq hS hL hfs hfr fl x gu (show Good S (.named m) from hm) hd hd', if_pos hone, hs]
  simp [unitScale, h1]

end

/-! ### The package's units meet the hypotheses -/

theorem registry_letters : DistinctLetters registry := by
  unfold DistinctLetters
  decide +kernel

/-- A text for nonnegative numbers as `FloatText` wants it: numerator, point, denominator. -/
def ratioText (x : ℚ) : Str := natStr x.num.natAbs ++ '.' :: natStr x.den

theorem ratioText_floatText : FloatText ratioText where
  first x _ := by
    obtain ⟨c, hc, hd⟩ := natStr_first x.num.natAbs
    refine ⟨c, ?_, hd⟩
    unfold ratioText
    cases h : natStr x.num.natAbs with
    | nil => rw [h] at hc; simp at hc
    | cons y t => rw [h] at hc; simpa using hc
  mark x _ := ⟨'.', by simp [ratioText], by decide⟩
  plain x _ c hc := by
    have hdig : ∀ n, c ∈ natStr n → c ≠ ' ' ∧ c ≠ '/' := by
      intro n h
      have := natStr_digits n c h
      constructor <;> (rintro rfl; revert this; decide)
    unfold ratioText at hc
    rcases List.mem_append.1 hc with h | h
    · exact hdig _ h
    · rcases List.mem_cons.1 h with rfl | h
      · decide
      · exact hdig _ h
  inj x y hx hy h := by
    have key : ∀ a a' b b' : Str, '.' ∉ a → '.' ∉ a' → a ++ '.' :: b = a' ++ '.' :: b' →
        a = a' ∧ b = b' := by
      intro a
      induction a with
      | nil =>
        intro a' b b' _ ha' h
        cases a' with
        | nil => simpa using h
        | cons c a' =>
          rw [List.nil_append, List.cons_append, List.cons.injEq] at h
          exact absurd (by rw [h.1]; simp) ha'
      | cons c a ih =>
        intro a' b b' ha ha' h
        cases a' with
        | nil =>
          rw [List.nil_append, List.cons_append, List.cons.injEq] at h
          exact absurd (by rw [h.1]; simp) ha
        | cons c' a' =>
          rw [List.cons_append, List.cons_append, List.cons.injEq] at h
          obtain ⟨h1, h2⟩ := ih a' b b' (fun h => ha (by simp [h])) (fun h => ha' (by simp [h])) h.2
          exact ⟨by rw [h.1, h1], h2⟩
    have hno : ∀ n, '.' ∉ natStr n := by
      intro n h
      have := natStr_digits n _ h
      revert this; decide
    obtain ⟨h1, h2⟩ := key _ _ _ _ (hno _) (hno _) h
    have hn := natStr_injective h1
    have hd := natStr_injective h2
    have p1 := Rat.num_nonneg.2 hx
    have p2 := Rat.num_nonneg.2 hy
    exact Rat.ext (by omega) hd

theorem two_scaleText : ScaleText fun _ => ['2', '.', '0'] := by
  intro x
  have h : ∀ c ∈ ['2', '.', '0'], c ≠ ' ' := by decide
  exact ⟨⟨'2', rfl, by decide⟩, h⟩

/-- Square roots: 9 km ** 0.5 is 9 * 1000 ** 0.5 m ** 0.5. -/
example (fl : ℚ → ℚ) : convert fl (fun _ => ['2', '.', '0']) ratioText 9
    (FUnit.pow fl (.named km) (.float (1 / 2))) (FUnit.pow fl (.named m) (.float (1 / 2))) =
      .ok (9 * ((1000 : ℝ) ^ ((1 / 2 : ℚ) : ℝ) / (1 : ℝ) ^ ((1 / 2 : ℚ) : ℝ))) := by
  have h := (C125_powers_partial registry_system registry_letters ratioText_floatText two_scaleText
    fl 9 km m (by decide +kernel) (by decide +kernel) (.float (1 / 2)) (.float (1 / 2))
    (by decide +kernel) (by decide +kernel)).1 ⟨by unfold SameKind; decide +kernel, Or.inl rfl⟩
  have h1 : (km.scale : ℝ) = 1000 := by
    have : km.scale = 1000 := by decide +kernel
    rw [this]; norm_num
  have h2 : (m.scale : ℝ) = 1 := by
    have : m.scale = 1 := by decide +kernel
    rw [this]; norm_num
  rw [h, h1, h2]; rfl

/-- `(m ** 1.5) ** 2` cannot be converted to `m ** 3`. -/
example : convert (binaryRound 53) (fun _ => ['2', '.', '0']) ratioText 1
    (FUnit.pow (binaryRound 53) (FUnit.pow (binaryRound 53) (.named m) (.float (3 / 2))) (.int 2))
    (FUnit.pow (binaryRound 53) (.named m) (.int 3)) = .error .valueError := by
  refine (C125_power_of_power_partial registry_system registry_letters ratioText_floatText two_scaleText
    (binaryRound 53) 1 m m (by decide +kernel) (by decide +kernel) (.float (3 / 2)) (.int 2)
    (.float 3) (.int 3) (computed_float (by decide +kernel) (by rintro ⟨_, _, h, _⟩; cases h))
    (by decide +kernel) (by decide +kernel)).2 ?_
  rintro ⟨_, h⟩
  unfold Alike at h
  revert h
  decide +kernel

/-- `m ** 0.1 * m ** 0.2` cannot be converted to `m ** 0.3`: the sum is rounded. -/
theorem C125_rounded_sum {fs : ℚ → Str} (hfs : FloatText fs) {fr : ℝ → Str} (hfr : ScaleText fr)
    (x : ℝ) (n : NamedUnit) (hn : n ∈ registry) :
    let fl := binaryRound 53
    let tenth := fun k : ℕ => Num.float (fl (k / 10))
    convert fl fr fs x ((FUnit.pow fl (.named n) (tenth 1)).mul fl (FUnit.pow fl (.named n) (tenth 2)))
      (FUnit.pow fl (.named n) (tenth 3)) = .error .valueError := by
  intro fl tenth
  refine (C125_product_of_powers_partial registry_system registry_letters hfs hfr fl x n n hn hn (tenth 1)
    (tenth 2) _ (tenth 3) (computed_float rfl (by rintro ⟨_, _, h, _⟩; cases h)) (by decide +kernel)
    (by decide +kernel) (by decide +kernel) (by rintro y h; cases h; decide +kernel)
    (by decide +kernel)).2 ?_
  rintro ⟨_, h⟩
  unfold Alike at h
  revert h
  decide +kernel

/-- The square of a square root converts to the unit itself. -/
example (x : ℝ) : convert (binaryRound 53) (fun _ => ['2', '.', '0']) ratioText x
    (FUnit.pow (binaryRound 53) (FUnit.pow (binaryRound 53) (.named km) (.float (1 / 2))) (.int 2))
    (.named km) = .ok (x * ((km.scale : ℝ) / km.scale)) :=
  C125_root_undone_partial registry_system registry_letters ratioText_floatText two_scaleText
    (binaryRound 53) x km km (by decide +kernel) (by decide +kernel) rfl _ _ (.float 1)
    (computed_float (by decide +kernel) (by rintro ⟨_, _, h, _⟩; cases h)) (by decide +kernel)
    (by decide +kernel)

/-- The formulas of `C125_conversion_partial`: km ** 0.5 / s to m ** 0.5 / s. -/
example : let e := FExpr.div (.pow (.unit km) (.float (1 / 2))) (.unit s)
    let e' := FExpr.div (.pow (.unit m) (.float (1 / 2))) (.unit s)
    (∀ n ∈ e.atoms, n ∈ registry) ∧ (∀ n ∈ e'.atoms, n ∈ registry) ∧ e.Safe ∧ e'.Safe := by
  refine ⟨by decide +kernel, by decide +kernel, ?_, ?_⟩ <;> simp [FExpr.Safe, FExpr.isNamed]

end Celest.Units.Frac
