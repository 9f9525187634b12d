/-
Lemmas about conversion of quantities.
-/
import Verif.Units.LemmasStr

namespace Celest.Units

open Celest.Text (Str)

theorem sameDimension_true {u v : BUnit} (h : sameDimension u v = .ok true) :
    ∃ s, u.dimension = .ok s ∧ v.dimension = .ok s := by
  unfold sameDimension at h
  cases hu : u.dimension with
  | error e => rw [hu] at h; cases h
  | ok s =>
    rw [hu] at h
    dsimp only at h
    cases hv : v.dimension with
    | error e => rw [hv] at h; cases h
    | ok s' =>
      rw [hv] at h
      simp only [Except.ok.injEq, decide_eq_true_eq] at h
      exact ⟨s, rfl, by rw [h]⟩

theorem sameDimension_of {u v : BUnit} {s : Str} (hu : u.dimension = .ok s)
    (hv : v.dimension = .ok s) : sameDimension u v = .ok true := by
  unfold sameDimension
  rw [hu, hv]
  simp

theorem sameDimension_symm {u v : BUnit} (h : sameDimension u v = .ok true) :
    sameDimension v u = .ok true := by
  obtain ⟨s, hu, hv⟩ := sameDimension_true h
  exact sameDimension_of hv hu

theorem sameDimension_trans {u v w : BUnit} (h : sameDimension u v = .ok true)
    (h' : sameDimension v w = .ok true) : sameDimension u w = .ok true := by
  obtain ⟨s, hu, hv⟩ := sameDimension_true h
  obtain ⟨s', hv', hw⟩ := sameDimension_true h'
  rw [hv] at hv'
  cases hv'
  exact sameDimension_of hu hw

theorem size_eq (u : BUnit) : u.size = unitScale u := by cases u <;> rfl

/-! ### Copies -/

theorem copy_repr (fs : ℚ → Str) (ρ : ℕ → ℕ) (u : BUnit) : (u.copy ρ).repr fs = u.repr fs := by
  cases u with
  | named n =>
    rw [BUnit.copy, repr_named, repr_named]
    have : (n.copy ρ).name = n.name := rfl
    rw [this]
  | compound c =>
    rw [BUnit.copy, repr_compound, repr_compound]
    simp only [Compound.str, List.map_map, Function.comp_def, NamedUnit.copy]

theorem copy_bases (ρ : ℕ → ℕ) (u : BUnit) : (u.copy ρ).bases = u.bases := by
  cases u with
  | named n => rfl
  | compound c => simp [BUnit.copy, BUnit.bases, NamedUnit.copy, Function.comp_def]

theorem copy_dimension (ρ : ℕ → ℕ) (u : BUnit) : (u.copy ρ).dimension = u.dimension := by
  unfold BUnit.dimension BUnit.dimensions
  rw [copy_bases]

theorem copy_unitScale (ρ : ℕ → ℕ) (u : BUnit) : unitScale (u.copy ρ) = unitScale u := by
  cases u with
  | named n => rfl
  | compound c => simp [BUnit.copy, unitScale, NamedUnit.copy, Function.comp_def]

theorem copy_to (fs : ℚ → Str) (ρ : ℕ → ℕ) (x : ℚ) (u v : BUnit) :
    (Quantity.mk x (u.copy ρ)).to fs v = (Quantity.mk x u).to fs v := by
  unfold Quantity.to Quantity.convertTo
  simp only [copy_dimension, copy_repr, copy_unitScale]
  cases u.dimension with
  | error e => rfl
  | ok d =>
    cases v.dimension with
    | error e => rfl
    | ok d' =>
      dsimp only
      split_ifs <;> rfl

/-! ### Conversion -/

section
variable {S : List NamedUnit} (hS : UnitSystem S) {fs : ℚ → Str} (hfs : FloatStr fs)

include hS hfs in
theorem to_eq (x : ℚ) {u v : BUnit} (hu : Good S u) (hv : Good S v)
    (h : sameDimension u v = .ok true) :
    (Quantity.mk x u).to fs v = .ok (x * (u.size / v.size)) := by
  obtain ⟨s, h1, h2⟩ := sameDimension_true h
  have hpos := unitScale_pos hS hv
  unfold Quantity.to Quantity.convertTo
  simp only [h1, h2, ne_eq, not_true, if_false]
  by_cases hr : u.repr fs = v.repr fs
  · rw [if_neg (by simpa using hr)]
    simp only [Except.map, size_eq, unitScale_of_repr hS hfs hu hv hr, div_self hpos.ne', mul_one]
  · rw [if_pos hr, if_neg hpos.ne']
    simp only [Except.map, size_eq]

theorem to_ok_same {x y : ℚ} {u v : BUnit} (h : (Quantity.mk x u).to fs v = .ok y) :
    sameDimension u v = .ok true := by
  unfold Quantity.to Quantity.convertTo at h
  unfold sameDimension
  cases hu : u.dimension with
  | error e => simp [hu, Except.map] at h
  | ok d =>
    cases hv : v.dimension with
    | error e => simp [hu, hv, Except.map] at h
    | ok d' =>
      simp only [hu, hv] at h
      by_cases hd : d = d'
      · simp [hd]
      · rw [if_pos hd] at h; cases h

theorem convertTo_to {ρ : ℕ → ℕ} {q r : Quantity} {v : BUnit} (h : q.convertTo fs ρ v = .ok r) :
    q.to fs v = .ok r.data ∧ (r.unit = v ∨ r.unit = q.unit.copy ρ ∧ q.unit.repr fs = v.repr fs) := by
  unfold Quantity.to
  unfold Quantity.convertTo at h ⊢
  cases hu : q.unit.dimension with
  | error e => simp [hu] at h
  | ok d =>
    cases hv : v.dimension with
    | error e => simp [hu, hv] at h
    | ok d' =>
      simp only [hu, hv] at h ⊢
      by_cases hd : d = d'
      · rw [if_neg (by simpa using hd)] at h ⊢
        by_cases hr : q.unit.repr fs = v.repr fs
        · rw [if_neg (by simpa using hr)] at h ⊢
          cases h
          exact ⟨rfl, Or.inr ⟨rfl, hr⟩⟩
        · rw [if_pos hr] at h ⊢
          split_ifs at h ⊢
          cases h
          exact ⟨rfl, Or.inl rfl⟩
      · rw [if_pos hd] at h; cases h

theorem convertTo_same {ρ : ℕ → ℕ} {q r : Quantity} {v : BUnit}
    (h : q.convertTo fs ρ v = .ok r) : sameDimension q.unit v = .ok true :=
  to_ok_same (x := q.data) (convertTo_to h).1

theorem convertTo_of_to {ρ : ℕ → ℕ} {q : Quantity} {v : BUnit} {y : ℚ} (h : q.to fs v = .ok y) :
    ∃ r, q.convertTo fs ρ v = .ok r ∧ r.data = y := by
  unfold Quantity.to at h
  unfold Quantity.convertTo at h ⊢
  cases hu : q.unit.dimension with
  | error e => simp [hu, Except.map] at h
  | ok d =>
    cases hv : v.dimension with
    | error e => simp [hu, hv, Except.map] at h
    | ok d' =>
      simp only [hu, hv] at h ⊢
      by_cases hd : d = d'
      · rw [if_neg (by simpa using hd)] at h ⊢
        by_cases hr : q.unit.repr fs = v.repr fs
        · rw [if_neg (by simpa using hr)] at h ⊢
          cases h
          exact ⟨_, rfl, rfl⟩
        · rw [if_pos hr] at h ⊢
          split_ifs at h ⊢
          · cases h
          · cases h
            exact ⟨_, rfl, rfl⟩
      · rw [if_pos hd] at h; cases h

include hS hfs in
/-- Converting the result of a conversion. -/
theorem convertTo_then_to {ρ : ℕ → ℕ} {q r : Quantity} {v w : BUnit} (hu : Good S q.unit)
    (hv : Good S v) (hw : Good S w) (h : q.convertTo fs ρ v = .ok r)
    (hd : sameDimension v w = .ok true) :
    r.to fs w = .ok (q.data * (q.unit.size / w.size)) := by
  have hsame := convertTo_same h
  obtain ⟨hto, hunit⟩ := convertTo_to h
  have hdata := to_eq hS hfs q.data hu hv hsame
  have e : r.data = q.data * (q.unit.size / v.size) := by
    have : q.to fs v = .ok (q.data * (q.unit.size / v.size)) := hdata
    rw [hto] at this
    exact Except.ok.inj this
  have hvp := unitScale_pos hS hv
  rcases hunit with hr | ⟨hr, hrepr⟩
  · have : r = ⟨r.data, v⟩ := by rw [← hr]
    rw [this, to_eq hS hfs _ hv hw hd, e]
    congr 1
    rw [size_eq v]
    field_simp
  · have : r = ⟨r.data, q.unit.copy ρ⟩ := by rw [← hr]
    rw [this, copy_to, to_eq hS hfs _ hu hw (sameDimension_trans hsame hd), e]
    congr 1
    rw [size_eq q.unit, size_eq v, unitScale_of_repr hS hfs hu hv hrepr, div_self hvp.ne']
    ring

end

/-! ### Dimension strings of simple units -/

theorem fraction_one (d : Char) : fraction [] [([d], 1)] = [d] := by
  simp [fraction, token, joinSpace, List.intercalate_singleton]

theorem named_dimension {S : List NamedUnit} (hS : UnitSystem S) {n : NamedUnit} (hn : n ∈ S)
    {d : Char} (hd : dimensionDictionary.lookup n.name = some d) :
    (BUnit.named n).dimension = .ok [d] := by
  obtain ⟨d', hd', b, hb, hbd⟩ := hS.dims n hn
  rw [hd] at hd'
  cases hd'
  simp only [BUnit.dimension, BUnit.dimensions, BUnit.bases, hb, dimensionsFrom, hbd, addDimension,
    Except.map, List.map_cons, List.map_nil, fraction_one]

theorem compound_dimension (c : Compound) :
    (BUnit.compound c).dimension = (dimensionsFrom (c.bases.map fun b => (b.1.name, b.2)) []).map
      fun l => fraction [] (l.map fun b => ([b.1], b.2)) := rfl

theorem smul_dimension {S : List NamedUnit} (hS : UnitSystem S) {u : BUnit} (hu : Good S u) (k : ℚ) :
    (u.smul k).dimension = u.dimension := by
  cases u with
  | named n =>
    obtain ⟨d, hd, _⟩ := hS.dims n hu
    rw [named_dimension hS hu hd]
    have : (BUnit.named n).smul k = .compound ⟨k * n.scale ^ (1 : ℤ), [(n, 1)], false⟩ := by
      simp [BUnit.smul, Compound.init]
    rw [this, compound_dimension]
    simp only [List.map_cons, List.map_nil, dimensionsFrom, hd, addDimension, Except.map,
      fraction_one]
  | compound c =>
    have hb : (Compound.init k [(.compound c, 1)]).bases = c.bases := by
      rcases init_one_bases k (.compound c) 1 hu with h | ⟨h, _⟩
      · simpa [BUnit.entries] using h
      · exact absurd h (by decide)
    rw [BUnit.smul, compound_dimension, compound_dimension, hb]

theorem mul_bases_two {a b : NamedUnit} (h : a.id ≠ b.id) :
    (BUnit.named a).mul (.named b) = .compound ⟨1, [(a, 1), (b, 1)], false⟩ := by
  simp [BUnit.mul, BUnit.isUnity, Compound.init, expandAndCollect, collectStep, hasId, h]

theorem div_bases_two {a b : NamedUnit} (h : a.id ≠ b.id) :
    (BUnit.named a).div (.named b) = .compound ⟨1, [(a, 1), (b, -1)], false⟩ := by
  simp [BUnit.div, Compound.init, expandAndCollect, collectStep, hasId, h]

end Celest.Units
