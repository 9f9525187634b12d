/-
C142: the text of windows and of collections of windows.

Two windows, or two collections, with the same text are the same as far as the text goes: the
number of windows, their order, kind, times and durations; the locations only up to the rounding of
their own text (C129), the attitudes only up to the identity of the object.
-/
import Verif.Units.PropsText
import Verif.Frames.Save
import Verif.Text.PropsRoundedAngle

namespace Celest.Windows

open Celest.Text Celest.Units Celest.Frames

/-! ### Model -/

/-- A ground location as its text sees it (ground_location.py 57-87): latitude and longitude in
degrees, the numbers stored for them, the height and the name of its unit. -/
structure Site where
  lat : ℚ
  latRaw : ℚ
  lon : ℚ
  lonRaw : ℚ
  height : ℚ
  unit : Str
deriving DecidableEq

/-- `GroundLocation.__str__` (ground_location.py 82-87) in double precision. -/
def Site.text (s : Site) : Str :=
  Rounded.iso6709 (binaryRound 53) s.lat s.latRaw s.lon s.lonRaw s.height s.unit

/-- An `Attitude` (attitude.py 12-104): where the object lies in memory, and its angles. -/
structure AttitudeObject where
  address : ℕ
  angles : List (ℚ × ℚ × ℚ)
deriving DecidableEq

/-- A hexadecimal digit. -/
def hexDigit (d : ℕ) : Char := if d < 10 then Char.ofNat (48 + d) else Char.ofNat (87 + d)

/-- `hex(n)` without its prefix. -/
def hexStr (n : ℕ) : Str := ((Nat.digits 16 n).reverse).map hexDigit

/-- `str` of an `Attitude`: the class defines neither `__str__` nor `__repr__` (attitude.py 12-128),
so Python's default is shown. -/
def AttitudeObject.text (a : AttitudeObject) : Str :=
  "<celest.coordinates.frames.attitude.Attitude object at 0x".toList ++ hexStr a.address ++ ['>']

/-- A number and the named unit it is in. -/
structure Measure where
  number : ℚ
  unit : NamedUnit
deriving DecidableEq

/-- `Quantity.__str__` (quantity.py 94-95). -/
def Measure.text (fs : ℚ → Str) (m : Measure) : Str := Quantity.str fs ⟨m.number, .named m.unit⟩

/-- The windows (window_handling.py 12-125).  Simplified: start times and durations are in named
units, as the scheduler's are (scheduler.py 112-113, insertion_operators.py 43-58). -/
inductive ShownWindow
  | visible (rise set : ℚ) (attitude : AttitudeObject)
  | observation (start duration : Measure) (site : Site) (attitude : AttitudeObject)

/-- `VisibleTimeWindow.__repr__` (window_handling.py 50-52) and `ObservationWindow.__repr__`
(window_handling.py 107-109). -/
def ShownWindow.repr (fs : ℚ → Str) : ShownWindow → Str
  | .visible r s a => "VisibleTimeWindow(".toList ++ fs r ++ ", ".toList ++ fs s ++ ", ".toList ++
      a.text ++ ")".toList
  | .observation t d p a => "ObservationWindow(".toList ++ t.text fs ++ ", ".toList ++ d.text fs ++
      ", ".toList ++ p.text ++ ", ".toList ++ a.text ++ ")".toList

/-- `VisibleTimeWindow.__str__` (window_handling.py 46-48), the times being in `jd2000` (lines
42-43), and `ObservationWindow.__str__` (window_handling.py 103-105). -/
def ShownWindow.str (fs : ℚ → Str) : ShownWindow → Str
  | .visible r s a => "Rise time: ".toList ++ (Measure.text fs ⟨r, jd2000⟩) ++
      ", Set time: ".toList ++ (Measure.text fs ⟨s, jd2000⟩) ++ ", Attitude: ".toList ++ a.text
  | .observation t d p a => "Start time: ".toList ++ t.text fs ++ ", Duration: ".toList ++
      d.text fs ++ ", Location: ".toList ++ p.text ++ ", Attitude: ".toList ++ a.text

/-- `WindowCollection.__repr__` (window_handling.py 158-160). -/
def collectionRepr (fs : ℚ → Str) (l : List ShownWindow) : Str :=
  "WindowCollection(".toList ++ List.intercalate ", ".toList (l.map (·.repr fs)) ++ ")".toList

/-- `WindowCollection.__str__` (window_handling.py 155-156): `str` of the list. -/
def collectionStr (fs : ℚ → Str) (l : List ShownWindow) : Str :=
  "[".toList ++ List.intercalate ", ".toList (l.map (·.repr fs)) ++ "]".toList

/-! ### Specification -/

/-- An ordinary ground location: its angles, as doubles, are within bounds, and have the signs of
the numbers stored. -/
structure Site.Ordinary (s : Site) : Prop where
  latFloat : IsFloat (binaryRound 53) |s.lat|
  lonFloat : IsFloat (binaryRound 53) |s.lon|
  lat_le : |s.lat| ≤ 90
  lon_le : |s.lon| ≤ 180
  latSign : 0 ≤ s.latRaw ↔ 0 ≤ s.lat
  lonSign : 0 ≤ s.lonRaw ↔ 0 ≤ s.lon

/-- The same location up to a hundredth of an arcsecond and of the unit of height, and up to an
arcminute for the angles of C129 that are shown an arcminute too large. -/
def SameSite (s s' : Site) : Prop :=
  |s.lat - s'.lat| ≤ excess s.lat + excess s'.lat + 0.0101 / 3600 ∧
  |s.lon - s'.lon| ≤ excess s.lon + excess s'.lon + 0.0101 / 3600 ∧
  |s.height - s'.height| ≤ 0.01 ∧ s.unit = s'.unit

/-- The same window as far as its text shows: same kind, same times, same attitude object, and the
same location up to rounding. -/
inductive SameWindow : ShownWindow → ShownWindow → Prop
  | visible (r s : ℚ) (a a' : AttitudeObject) (h : a.address = a'.address) :
      SameWindow (.visible r s a) (.visible r s a')
  | observation (t d : Measure) (p p' : Site) (a a' : AttitudeObject) (hp : SameSite p p')
      (h : a.address = a'.address) : SameWindow (.observation t d p a) (.observation t d p' a')

/-- A window with units of `S` at an ordinary location. -/
def ShownWindow.Ordinary (S : List NamedUnit) : ShownWindow → Prop
  | .visible _ _ _ => True
  | .observation t d p _ => t.unit ∈ S ∧ d.unit ∈ S ∧ p.Ordinary ∧ ∃ u ∈ S, u.name = p.unit

/-! ### Lemmas -/

theorem hexDigit_plain : ∀ d < 16, hexDigit d ≠ ',' ∧ hexDigit d ≠ '>' := by decide

theorem hexDigit_inj : ∀ d < 16, ∀ e < 16, hexDigit d = hexDigit e → d = e := by decide

theorem hexStr_plain (n : ℕ) : ∀ c ∈ hexStr n, c ≠ ',' ∧ c ≠ '>' := by
  intro c hc
  obtain ⟨d, hd, rfl⟩ := List.mem_map.1 hc
  exact hexDigit_plain d (Nat.digits_lt_base (by norm_num) (List.mem_reverse.1 hd))

theorem hexStr_inj {m n : ℕ} (h : hexStr m = hexStr n) : m = n := by
  unfold hexStr at h
  have key : ∀ l l' : List ℕ, (∀ d ∈ l, d < 16) → (∀ d ∈ l', d < 16) →
      l.map hexDigit = l'.map hexDigit → l = l' := by
    intro l
    induction l with
    | nil =>
      intro l' _ _ h
      cases l' with
      | nil => rfl
      | cons b l' => simp at h
    | cons a l ih =>
      intro l' hl hl' h
      cases l' with
      | nil => simp at h
      | cons b l' =>
        rw [List.map_cons, List.map_cons, List.cons.injEq] at h
        rw [hexDigit_inj a (hl a (by simp)) b (hl' b (by simp)) h.1,
          ih l' (fun d hd => hl d (by simp [hd])) (fun d hd => hl' d (by simp [hd])) h.2]
  have hlt : ∀ n : ℕ, ∀ d ∈ (Nat.digits 16 n).reverse, d < 16 := fun n d hd =>
    Nat.digits_lt_base (by norm_num) (List.mem_reverse.1 hd)
  exact Nat.digits.injective 16 (List.reverse_injective (key _ _ (hlt m) (hlt n) h))

theorem append_plain {c : Char} {s t : Str} (hs : c ∉ s) (ht : c ∉ t) : c ∉ s ++ t := fun h =>
  (List.mem_append.1 h).elim hs ht

theorem attitude_plain (a : AttitudeObject) : ',' ∉ a.text :=
  append_plain (append_plain (by decide +kernel) fun h => (hexStr_plain _ _ h).1 rfl) (by decide)

theorem attitude_inj {a a' : AttitudeObject} (h : a.text = a'.text) : a.address = a'.address := by
  unfold AttitudeObject.text at h
  rw [List.append_left_inj, List.append_right_inj] at h
  exact hexStr_inj h

/-- A character of numerals. -/
theorem fixed_plain (d : ℕ) (x : ℚ) : ',' ∉ fmtFixed d x ∧ ' ' ∉ fmtFixed d x := by
  constructor <;> intro h
  · rcases fmtFixed_chars d x _ h with h | h | h <;> revert h <;> decide
  · rcases fmtFixed_chars d x _ h with h | h | h <;> revert h <;> decide

theorem zfill_plain (w : ℕ) (s : Str) (c : Char) (hc : c ≠ '0') (h : c ∉ s) : c ∉ zfill w s := by
  intro hm
  unfold zfill at hm
  rcases List.mem_append.1 hm with h' | h'
  · exact hc (List.mem_replicate.1 h').2
  · exact h h'

theorem sexagesimal_plain (x : ℚ) (c : Char) (hc : c = ',' ∨ c = ' ') :
    c ∉ Rounded.sexagesimal (binaryRound 53) x := by
  have hd : c.isDigit = false := by rcases hc with rfl | rfl <;> decide
  have h0 : c ≠ '0' := by rcases hc with rfl | rfl <;> decide
  have hn : ∀ w n, c ∉ zfill w (natStr n) := fun w n h => by
    rw [zfill_digits w n c h] at hd; cases hd
  have hs : ∀ y, c ∉ zfill 5 (fmtFixed 2 y) := fun y => zfill_plain _ _ _ h0 (by
    rcases hc with rfl | rfl
    · exact (fixed_plain 2 y).1
    · exact (fixed_plain 2 y).2)
  unfold Rounded.sexagesimal
  simp only [List.mem_append, List.mem_singleton, not_or]
  refine ⟨⟨⟨⟨⟨fun h => hn _ _ (List.mem_of_mem_take h), ?_⟩,
    fun h => hn _ _ (List.mem_of_mem_take h)⟩, ?_⟩, hs _⟩, ?_⟩ <;>
  · rcases hc with rfl | rfl <;> decide

theorem letters_plain (s : Str) (c : Char) (hc : c = ',' ∨ c = ' ') (p : Prop) [Decidable p]
    (a b : Char) (h : c ∉ s) (ha : a ≠ ',' ∧ a ≠ ' ') (hb : b ≠ ',' ∧ b ≠ ' ') :
    c ∉ s ++ (if p then [a] else [b]) := by
  intro hm
  rcases List.mem_append.1 hm with h' | h'
  · exact h h'
  · split_ifs at h' <;> rw [List.mem_singleton] at h' <;> subst h' <;>
      rcases hc with hc | hc <;> simp_all

theorem latitude_plain (x y : ℚ) (c : Char) (hc : c = ',' ∨ c = ' ') :
    c ∉ Rounded.latitudeString (binaryRound 53) x y :=
  letters_plain _ c hc _ _ _ (sexagesimal_plain _ c hc) (by decide) (by decide)

theorem longitude_plain (x y : ℚ) (c : Char) (hc : c = ',' ∨ c = ' ') :
    c ∉ Rounded.longitudeString (binaryRound 53) x y :=
  letters_plain _ c hc _ _ _ (sexagesimal_plain _ c hc) (by decide) (by decide)

theorem site_text (s : Site) : s.text =
    Rounded.latitudeString (binaryRound 53) s.lat s.latRaw ++ ' ' ::
      (Rounded.longitudeString (binaryRound 53) s.lon s.lonRaw ++ ' ' ::
        (fmtFixed 2 s.height ++ s.unit)) := by
  simp [Site.text, Rounded.iso6709, List.intercalate_cons_cons, heightString]

theorem site_plain (s : Site) (h : ',' ∉ s.unit) : ',' ∉ s.text := by
  rw [site_text]
  have h1 := latitude_plain s.lat s.latRaw ',' (Or.inl rfl)
  have h2 := longitude_plain s.lon s.lonRaw ',' (Or.inl rfl)
  have h3 := (fixed_plain 2 s.height).1
  simp only [List.mem_append, List.mem_cons, not_or]
  exact ⟨h1, by decide, h2, by decide, h3, h⟩

/-- A number with two decimals followed by a unit shows the unit. -/
theorem height_unit {x y : ℚ} {u v : Str} (h : fmtFixed 2 x ++ u = fmtFixed 2 y ++ v) : u = v := by
  have form : ∀ z : ℚ, ∃ s t : Str, fmtFixed 2 z = s ++ '.' :: t ∧ '.' ∉ s ∧ t.length = 2 := by
    intro z
    obtain ⟨n, hn⟩ : ∃ n, n = roundHalfEven (|z| * 10 ^ 2) := ⟨_, rfl⟩
    refine ⟨(if z < 0 then ['-'] else []) ++ natStr (n / 10 ^ 2), zfill 2 (natStr (n % 10 ^ 2)),
      ?_, ?_, zfill_two_length _ (Nat.mod_lt _ (by norm_num))⟩
    · rw [fmtFixed_eq, ← hn, unsignedText, if_neg (show ¬ (2 : ℕ) = 0 by norm_num), List.append_assoc]
    · intro hm
      rcases List.mem_append.1 hm with h | h
      · split_ifs at h
        · revert h; decide
        · simp at h
      · have := natStr_digits _ _ h
        revert this; decide
  obtain ⟨s, t, h1, h2, h3⟩ := form x
  obtain ⟨s', t', h1', h2', h3'⟩ := form y
  rw [h1, h1', List.append_assoc, List.append_assoc, List.cons_append, List.cons_append] at h
  have := (append_sep_inj '.' h2 h2' h).2
  exact (List.append_inj this (by rw [h3, h3'])).2

theorem sameSite_of_text {s s' : Site} (hs : s.Ordinary) (hs' : s'.Ordinary)
    (h : s.text = s'.text) : SameSite s s' := by
  have hu : s.unit = s'.unit := by
    have h' := h
    rw [site_text, site_text] at h'
    have h1 := (append_sep_inj ' ' (latitude_plain _ _ _ (Or.inr rfl))
      (latitude_plain _ _ _ (Or.inr rfl)) h').2
    have h2 := (append_sep_inj ' ' (longitude_plain _ _ _ (Or.inr rfl))
      (longitude_plain _ _ _ (Or.inr rfl)) h1).2
    exact height_unit h2
  unfold Site.text at h
  rw [← hu] at h
  obtain ⟨a, b, c⟩ := C129_same_text_partial s.height s'.height s.unit hs.latFloat hs.lonFloat hs.lat_le
    hs.lon_le hs.latSign hs.lonSign hs'.latFloat hs'.lonFloat hs'.lat_le hs'.lon_le hs'.latSign
    hs'.lonSign h
  exact ⟨a, b, c, hu⟩

section
variable {S : List NamedUnit} (hS : UnitSystem S) (hnames : ∀ u ∈ S, ',' ∉ u.name)
  {fs : ℚ → Str} (hfs : FloatStr fs) (hcomma : ∀ x, ',' ∉ fs x) (hinj : Function.Injective fs)

theorem measure_text (m : Measure) : m.text fs = fs m.number ++ ' ' :: m.unit.name := by
  simp [Measure.text, Quantity.str, BUnit.str]

include hnames hcomma in
theorem measure_plain {m : Measure} (hm : m.unit ∈ S) : ',' ∉ m.text fs := by
  rw [measure_text]
  simp only [List.mem_append, List.mem_cons, not_or]
  exact ⟨hcomma _, by decide, hnames _ hm⟩

include hS hfs hinj in
theorem measure_inj {m m' : Measure} (hm : m.unit ∈ S) (hm' : m'.unit ∈ S)
    (h : m.text fs = m'.text fs) : m = m' := by
  rw [measure_text, measure_text] at h
  obtain ⟨h1, h2⟩ := append_sep_inj ' ' (fun h => (hfs _).2 _ h rfl) (fun h => (hfs _).2 _ h rfl) h
  cases m; cases m'
  rw [Measure.mk.injEq]
  exact ⟨hinj h1, name_injective hS hm hm' h2⟩

/-- The pieces of a window's representation between commas. -/
def ShownWindow.pieces (fs : ℚ → Str) : ShownWindow → List Str
  | .visible r s a => ["VisibleTimeWindow(".toList ++ fs r, ' ' :: fs s, ' ' :: a.text ++ ")".toList]
  | .observation t d p a => ["ObservationWindow(".toList ++ t.text fs, ' ' :: d.text fs,
      ' ' :: p.text, ' ' :: a.text ++ ")".toList]

theorem repr_pieces (w : ShownWindow) :
    w.repr fs = List.intercalate [','] (w.pieces fs) := by
  have e : ", ".toList = [',', ' '] := by decide +kernel
  have three : ∀ p a b c q : Str, p ++ a ++ [',', ' '] ++ b ++ [',', ' '] ++ c ++ q =
      List.intercalate [','] [p ++ a, ' ' :: b, ' ' :: c ++ q] := by
    intro p a b c q
    simp [List.intercalate_cons_cons]
  have four : ∀ p a b c d q : Str,
      p ++ a ++ [',', ' '] ++ b ++ [',', ' '] ++ c ++ [',', ' '] ++ d ++ q =
      List.intercalate [','] [p ++ a, ' ' :: b, ' ' :: c, ' ' :: d ++ q] := by
    intro p a b c d q
    simp [List.intercalate_cons_cons]
  cases w with
  | visible r s a =>
    unfold ShownWindow.repr ShownWindow.pieces
    rw [e]
    exact three _ _ _ _ _
  | observation t d p a =>
    unfold ShownWindow.repr ShownWindow.pieces
    rw [e]
    exact four _ _ _ _ _ _

include hnames hcomma in
theorem pieces_plain {w : ShownWindow} (hw : w.Ordinary S) : ∀ t ∈ w.pieces fs, ',' ∉ t := by
  cases w with
  | visible r s a =>
    intro t ht
    simp only [ShownWindow.pieces, List.mem_cons, List.not_mem_nil, or_false] at ht
    rcases ht with rfl | rfl | rfl
    · rw [List.mem_append, not_or]; exact ⟨by decide, hcomma _⟩
    · rw [List.mem_cons, not_or]; exact ⟨by decide, hcomma _⟩
    · rw [List.mem_append, List.mem_cons, not_or, not_or]
      exact ⟨⟨by decide, attitude_plain a⟩, by decide⟩
  | observation t d p a =>
    obtain ⟨h1, h2, -, u, hu, hp⟩ := hw
    intro x hx
    simp only [ShownWindow.pieces, List.mem_cons, List.not_mem_nil, or_false] at hx
    rcases hx with rfl | rfl | rfl | rfl
    · rw [List.mem_append, not_or]; exact ⟨by decide, measure_plain hnames hcomma h1⟩
    · rw [List.mem_cons, not_or]; exact ⟨by decide, measure_plain hnames hcomma h2⟩
    · rw [List.mem_cons, not_or]; exact ⟨by decide, site_plain _ (hp ▸ hnames u hu)⟩
    · rw [List.mem_append, List.mem_cons, not_or, not_or]
      exact ⟨⟨by decide, attitude_plain a⟩, by decide⟩

include hS hfs hinj in
theorem pieces_inj {w w' : ShownWindow} (hw : w.Ordinary S) (hw' : w'.Ordinary S)
    {t t' : List Str} (h : w.pieces fs ++ t = w'.pieces fs ++ t') :
    SameWindow w w' ∧ t = t' := by
  cases w with
  | visible r s a =>
    cases w' with
    | visible r' s' a' =>
      simp only [ShownWindow.pieces, List.cons_append, List.nil_append, List.cons.injEq,
        List.append_right_inj, List.append_left_inj, true_and] at h
      obtain ⟨h1, h2, h3, h4⟩ := h
      rw [hinj h1, hinj h2]
      exact ⟨.visible _ _ _ _ (attitude_inj h3), h4⟩
    | observation t' d' p' a' =>
      simp [ShownWindow.pieces] at h
  | observation u d p a =>
    cases w' with
    | visible r' s' a' =>
      simp [ShownWindow.pieces] at h
    | observation u' d' p' a' =>
      simp only [ShownWindow.pieces, List.cons_append, List.nil_append, List.cons.injEq,
        List.append_right_inj, List.append_left_inj, true_and] at h
      obtain ⟨h1, h2, h3, h4, h5⟩ := h
      rw [measure_inj hS hfs hinj hw.1 hw'.1 h1, measure_inj hS hfs hinj hw.2.1 hw'.2.1 h2]
      exact ⟨.observation _ _ _ _ _ _ (sameSite_of_text hw.2.2.1 hw'.2.2.1 h3)
        (attitude_inj h4), h5⟩

/-- A space before the first piece. -/
def spaced : List Str → List Str
  | [] => []
  | t :: r => (' ' :: t) :: r

theorem spaced_inj {l l' : List Str} (h : spaced l = spaced l') : l = l' := by
  cases l <;> cases l' <;> simp_all [spaced]

/-- The pieces of all windows of a collection. -/
def allPieces (fs : ℚ → Str) : List ShownWindow → List Str
  | [] => []
  | w :: l => w.pieces fs ++ spaced (allPieces fs l)

theorem pieces_ne_nil (w : ShownWindow) : w.pieces fs ≠ [] := by
  cases w <;> simp [ShownWindow.pieces]

theorem allPieces_ne_nil (w : ShownWindow) (l : List ShownWindow) :
    allPieces fs (w :: l) ≠ [] := by
  simp [allPieces, pieces_ne_nil]

theorem intercalate_join (A B : List Str) (hA : A ≠ []) (hB : B ≠ []) :
    List.intercalate [','] (A ++ B) =
      List.intercalate [','] A ++ ',' :: List.intercalate [','] B := by
  induction A with
  | nil => exact absurd rfl hA
  | cons x A ih =>
    cases A with
    | nil =>
      cases B with
      | nil => exact absurd rfl hB
      | cons y B => simp [List.intercalate_cons_cons]
    | cons z A =>
      have := ih (by simp)
      rw [List.cons_append] at this ⊢
      rw [List.cons_append, List.intercalate_cons_cons, this, List.intercalate_cons_cons]
      simp

theorem intercalate_spaced (B : List Str) (hB : B ≠ []) :
    List.intercalate [','] (spaced B) = ' ' :: List.intercalate [','] B := by
  cases B with
  | nil => exact absurd rfl hB
  | cons x B =>
    cases B with
    | nil => simp [spaced]
    | cons y B => simp [spaced, List.intercalate_cons_cons]

theorem body_pieces (l : List ShownWindow) :
    List.intercalate [',', ' '] (l.map (·.repr fs)) = List.intercalate [','] (allPieces fs l) := by
  induction l with
  | nil => rfl
  | cons w l ih =>
    cases l with
    | nil => simp [allPieces, spaced, repr_pieces]
    | cons v l =>
      have hne := allPieces_ne_nil (fs := fs) v l
      rw [allPieces, intercalate_join _ _ (pieces_ne_nil w) (by
        intro h; exact hne (spaced_inj h)), intercalate_spaced _ hne, ← ih, List.map_cons,
        List.map_cons, List.intercalate_cons_cons, repr_pieces w]
      simp

include hnames hcomma in
theorem allPieces_plain {l : List ShownWindow} (hl : ∀ w ∈ l, w.Ordinary S) :
    ∀ t ∈ allPieces fs l, ',' ∉ t := by
  induction l with
  | nil => simp [allPieces]
  | cons w l ih =>
    intro t ht
    rcases List.mem_append.1 ht with h | h
    · exact pieces_plain hnames hcomma (hl w (by simp)) t h
    · have := ih fun v hv => hl v (by simp [hv])
      cases hp : allPieces fs l with
      | nil => rw [hp] at h; simp [spaced] at h
      | cons x r =>
        rw [hp] at h this
        rcases List.mem_cons.1 h with rfl | h
        · exact append_plain (s := [' ']) (by decide) (this x (by simp))
        · exact this t (by simp [h])

include hS hfs hinj in
theorem allPieces_inj {l l' : List ShownWindow} (hl : ∀ w ∈ l, w.Ordinary S)
    (hl' : ∀ w ∈ l', w.Ordinary S) (h : allPieces fs l = allPieces fs l') :
    List.Forall₂ SameWindow l l' := by
  induction l generalizing l' with
  | nil =>
    cases l' with
    | nil => exact .nil
    | cons w' l' => exact absurd h.symm (allPieces_ne_nil w' l')
  | cons w l ih =>
    cases l' with
    | nil => exact absurd h (allPieces_ne_nil w l)
    | cons w' l' =>
      obtain ⟨h1, h2⟩ := pieces_inj hS hfs hinj (hl w (by simp)) (hl' w' (by simp)) h
      exact .cons h1 (ih (fun v hv => hl v (by simp [hv])) (fun v hv => hl' v (by simp [hv]))
        (spaced_inj h2))

include hS hnames hfs hcomma hinj in
theorem body_inj {l l' : List ShownWindow} (hl : ∀ w ∈ l, w.Ordinary S)
    (hl' : ∀ w ∈ l', w.Ordinary S)
    (h : List.intercalate ", ".toList (l.map (·.repr fs)) =
      List.intercalate ", ".toList (l'.map (·.repr fs))) : List.Forall₂ SameWindow l l' := by
  have e : ", ".toList = [',', ' '] := by decide +kernel
  rw [e, body_pieces, body_pieces] at h
  refine allPieces_inj hS hfs hinj hl hl' ?_
  have nonempty : ∀ w l, List.intercalate [','] (allPieces fs (w :: l)) ≠ [] := by
    intro w l hn
    rw [← body_pieces, List.map_cons] at hn
    have hw : w.repr fs ≠ [] := by
      rw [repr_pieces]
      intro h
      cases w with
      | visible r s a =>
        rw [ShownWindow.pieces, List.intercalate_cons_cons] at h
        simp at h
      | observation t d p a =>
        rw [ShownWindow.pieces, List.intercalate_cons_cons] at h
        simp at h
    cases l with
    | nil => exact hw (by simpa using hn)
    | cons v l =>
      rw [List.map_cons, List.intercalate_cons_cons] at hn
      simp [hw] at hn
  cases l with
  | nil =>
    cases l' with
    | nil => rfl
    | cons w' l' => exact absurd h.symm (nonempty w' l')
  | cons w l =>
    cases l' with
    | nil => exact absurd h (nonempty w l)
    | cons w' l' =>
      have hs := congrArg (List.splitOn ',') h
      rwa [List.splitOn_intercalate ',' (allPieces_plain hnames hcomma hl) (allPieces_ne_nil _ _),
        List.splitOn_intercalate ',' (allPieces_plain hnames hcomma hl') (allPieces_ne_nil _ _)]
        at hs

/-! ### C142 -/

include hS hnames hfs hcomma hinj in
/-- **C142 (partial).** Two collections with the same `repr` hold equally many windows, in the same
order, of the same kinds, with the same times and durations, the same attitude objects, and the same
locations up to a hundredth of an arcsecond.  Missing: the exact locations, and the angles of the
attitudes.  `str` on floats is assumed to be injective and free of commas. -/
theorem C142_repr_partial {l l' : List ShownWindow} (hl : ∀ w ∈ l, w.Ordinary S)
    (hl' : ∀ w ∈ l', w.Ordinary S) (h : collectionRepr fs l = collectionRepr fs l') :
    List.Forall₂ SameWindow l l' := by
  unfold collectionRepr at h
  rw [List.append_left_inj, List.append_right_inj] at h
  exact body_inj hS hnames hfs hcomma hinj hl hl' h

include hS hnames hfs hcomma hinj in
/-- **C142 (partial).** The same for `str` of a collection. -/
theorem C142_str_partial {l l' : List ShownWindow} (hl : ∀ w ∈ l, w.Ordinary S)
    (hl' : ∀ w ∈ l', w.Ordinary S) (h : collectionStr fs l = collectionStr fs l') :
    List.Forall₂ SameWindow l l' := by
  unfold collectionStr at h
  rw [List.append_left_inj, List.append_right_inj] at h
  exact body_inj hS hnames hfs hcomma hinj hl hl' h

include hS hnames hfs hcomma hinj in
/-- **C142 (partial).** The same for `repr` of a single window. -/
theorem C142_window_repr_partial {w w' : ShownWindow} (hw : w.Ordinary S) (hw' : w'.Ordinary S)
    (h : w.repr fs = w'.repr fs) : SameWindow w w' := by
  have := body_inj hS hnames hfs hcomma hinj (l := [w]) (l' := [w']) (by simpa using hw)
    (by simpa using hw') (by simpa using h)
  cases this with
  | cons h _ => exact h

include hS hnames hfs hcomma hinj in
/-- **C142 (partial).** The same for `str` of a single window. -/
theorem C142_window_str_partial (hj : jd2000 ∈ S) {w w' : ShownWindow} (hw : w.Ordinary S)
    (hw' : w'.Ordinary S) (h : w.str fs = w'.str fs) : SameWindow w w' := by
  have n1 : ", Set time: ".toList = ',' :: " Set time: ".toList := by decide +kernel
  have n2 : ", Attitude: ".toList = ',' :: " Attitude: ".toList := by decide +kernel
  have n3 : ", Duration: ".toList = ',' :: " Duration: ".toList := by decide +kernel
  have n4 : ", Location: ".toList = ',' :: " Location: ".toList := by decide +kernel
  have hm : ∀ x, ',' ∉ Measure.text fs ⟨x, jd2000⟩ := fun x => measure_plain hnames hcomma hj
  have first : ∀ {a b : Str}, "Rise time: ".toList ++ a ≠ "Start time: ".toList ++ b := by
    intro a b h
    have := congrArg List.head? h
    revert this
    rw [show "Rise time: ".toList = 'R' :: "ise time: ".toList by decide +kernel,
      show "Start time: ".toList = 'S' :: "tart time: ".toList by decide +kernel]
    simp only [List.cons_append, List.head?_cons]
    decide
  cases w with
  | visible r s a =>
    cases w' with
    | visible r' s' a' =>
      unfold ShownWindow.str at h
      rw [n1, n2] at h
      simp only [List.append_assoc, List.cons_append] at h
      rw [List.append_right_inj] at h
      obtain ⟨h1, h⟩ := append_sep_inj ',' (hm _) (hm _) h
      rw [List.append_right_inj] at h
      obtain ⟨h2, h⟩ := append_sep_inj ',' (hm _) (hm _) h
      rw [List.append_right_inj] at h
      have e1 := measure_inj hS hfs hinj hj hj h1
      have e2 := measure_inj hS hfs hinj hj hj h2
      rw [Measure.mk.injEq] at e1 e2
      rw [e1.1, e2.1]
      exact .visible _ _ _ _ (attitude_inj h)
    | observation t' d' p' a' =>
      unfold ShownWindow.str at h
      simp only [List.append_assoc] at h
      exact absurd h first
  | observation t d p a =>
    cases w' with
    | visible r' s' a' =>
      unfold ShownWindow.str at h
      simp only [List.append_assoc] at h
      exact absurd h.symm first
    | observation t' d' p' a' =>
      obtain ⟨w1, w2, w3, u, hu, hpu⟩ := hw
      obtain ⟨w1', w2', w3', u', hu', hpu'⟩ := hw'
      unfold ShownWindow.str at h
      rw [n2, n3, n4] at h
      simp only [List.append_assoc, List.cons_append] at h
      rw [List.append_right_inj] at h
      obtain ⟨h1, h⟩ := append_sep_inj ',' (measure_plain hnames hcomma w1)
        (measure_plain hnames hcomma w1') h
      rw [List.append_right_inj] at h
      obtain ⟨h2, h⟩ := append_sep_inj ',' (measure_plain hnames hcomma w2)
        (measure_plain hnames hcomma w2') h
      rw [List.append_right_inj] at h
      obtain ⟨h3, h⟩ := append_sep_inj ',' (site_plain _ (hpu ▸ hnames u hu))
        (site_plain _ (hpu' ▸ hnames u' hu')) h
      rw [List.append_right_inj] at h
      rw [measure_inj hS hfs hinj w1 w1' h1, measure_inj hS hfs hinj w2 w2' h2]
      exact .observation _ _ _ _ _ _ (sameSite_of_text w3 w3' h3) (attitude_inj h)

include hcomma in
/-- **C142.** Taken apart at the commas, the `repr` of a visible time window gives the rise time,
then the set time, then the attitude. -/
theorem C142_visible_reads_partial (r s : ℚ) (a : AttitudeObject) :
    (ShownWindow.repr fs (.visible r s a)).splitOn ',' =
      ["VisibleTimeWindow(".toList ++ fs r, " ".toList ++ fs s,
        " ".toList ++ a.text ++ ")".toList] := by
  rw [repr_pieces, List.splitOn_intercalate ',' (pieces_plain (S := [])
    (w := .visible r s a) (by simp) hcomma trivial)
    (pieces_ne_nil _), show " ".toList = [' '] by decide +kernel]
  rfl

include hnames hcomma in
/-- **C142.** Taken apart at the commas, the `repr` of an observation window gives the start time,
the duration, the location and the attitude, in this order. -/
theorem C142_observation_reads_partial (t d : Measure) (p : Site) (a : AttitudeObject)
    (hw : (ShownWindow.observation t d p a).Ordinary S) :
    (ShownWindow.repr fs (.observation t d p a)).splitOn ',' =
      ["ObservationWindow(".toList ++ fs t.number ++ " ".toList ++ t.unit.name,
        " ".toList ++ fs d.number ++ " ".toList ++ d.unit.name, " ".toList ++ p.text,
        " ".toList ++ a.text ++ ")".toList] := by
  rw [repr_pieces, List.splitOn_intercalate ',' (pieces_plain hnames hcomma hw)
    (pieces_ne_nil _), show " ".toList = [' '] by decide +kernel]
  rw [ShownWindow.pieces, measure_text, measure_text]
  simp only [List.append_assoc, List.cons_append, List.nil_append]

include hcomma in
/-- **C142.** The `str` of a visible time window labels the times: the rise time first, then the
set time, in days. -/
theorem C142_visible_labels_partial (r s : ℚ) (a : AttitudeObject) :
    (ShownWindow.str fs (.visible r s a)).splitOn ',' =
      ["Rise time: ".toList ++ fs r ++ " jd2000".toList,
        " Set time: ".toList ++ fs s ++ " jd2000".toList, " Attitude: ".toList ++ a.text] := by
  have n1 : ", Set time: ".toList = ',' :: " Set time: ".toList := by decide +kernel
  have n2 : ", Attitude: ".toList = ',' :: " Attitude: ".toList := by decide +kernel
  have hj : jd2000.name = "jd2000".toList := by decide +kernel
  have hj' : " jd2000".toList = ' ' :: "jd2000".toList := by decide +kernel
  have hu : ',' ∉ " jd2000".toList := by decide +kernel
  have join : ∀ A B C U x y z : Str, ',' ∉ A → ',' ∉ B → ',' ∉ C → ',' ∉ ' ' :: U → ',' ∉ x →
      ',' ∉ y → ',' ∉ z → (A ++ (x ++ ' ' :: U) ++ (',' :: B) ++ (y ++ ' ' :: U) ++ (',' :: C) ++
        z).splitOn ',' = [A ++ x ++ ' ' :: U, B ++ y ++ ' ' :: U, C ++ z] := by
    intro A B C U x y z hA hB hC hU hx hy hz
    have := List.splitOn_intercalate ','
      (ls := [A ++ x ++ ' ' :: U, B ++ y ++ ' ' :: U, C ++ z]) (by
        intro t ht
        simp only [List.mem_cons, List.not_mem_nil, or_false] at ht
        rcases ht with rfl | rfl | rfl
        · exact append_plain (append_plain hA hx) hU
        · exact append_plain (append_plain hB hy) hU
        · exact append_plain hC hz) (by simp)
    simpa [List.intercalate_cons_cons] using this
  have hA : ',' ∉ "Rise time: ".toList := by decide +kernel
  have hB : ',' ∉ " Set time: ".toList := by decide +kernel
  have hC : ',' ∉ " Attitude: ".toList := by decide +kernel
  unfold ShownWindow.str
  dsimp only
  rw [measure_text, measure_text, n1, n2, hj, hj']
  exact join _ _ _ _ _ _ _ hA hB hC (hj' ▸ hu) (hcomma r) (hcomma s) (attitude_plain a)

end

/-- The window with other angles in its attitude. -/
def ShownWindow.withAngles (angles : List (ℚ × ℚ × ℚ)) : ShownWindow → ShownWindow
  | .visible r s a => .visible r s ⟨a.address, angles⟩
  | .observation t d p a => .observation t d p ⟨a.address, angles⟩

/-- **C142 (failure).** The angles of an attitude are not shown: the text stays the same whatever
they are. -/
theorem C142_angles_not_shown (fs : ℚ → Str) (w : ShownWindow) (angles : List (ℚ × ℚ × ℚ)) :
    (w.withAngles angles).repr fs = w.repr fs ∧ (w.withAngles angles).str fs = w.str fs := by
  cases w <;> exact ⟨rfl, rfl⟩

/-- **C142 (failure).** Conversely windows that agree in everything but are given attitudes in two
objects, equal ones even, are shown differently. -/
theorem C142_equal_attitudes_shown_differently (fs : ℚ → Str) (r s : ℚ) (a a' : AttitudeObject)
    (h : a.address ≠ a'.address) :
    ShownWindow.repr fs (.visible r s a) ≠ ShownWindow.repr fs (.visible r s a') := by
  intro he
  unfold ShownWindow.repr at he
  rw [List.append_left_inj, List.append_right_inj] at he
  exact h (attitude_inj he)

theorem shown_alike (fs : ℚ → Str) (before after : List ShownWindow) (t d : Measure)
    (a : AttitudeObject) (p p' : Site) (h : p.text = p'.text) :
    collectionRepr fs (before ++ .observation t d p a :: after) =
      collectionRepr fs (before ++ .observation t d p' a :: after) := by
  have hw : ShownWindow.repr fs (.observation t d p a) =
      ShownWindow.repr fs (.observation t d p' a) := by
    rw [repr_pieces, repr_pieces]
    simp only [ShownWindow.pieces, h]
  unfold collectionRepr
  rw [List.map_append, List.map_append, List.map_cons, List.map_cons, hw]

/-- **C142 (failure).** Whatever the other windows, and whatever the time, duration and attitude:
there are two locations an observation could be of without the text showing which. -/
theorem C142_location_not_shown (fs : ℚ → Str) (before after : List ShownWindow) (t d : Measure)
    (a : AttitudeObject) : ∃ p p' : Site, p.Ordinary ∧ p'.Ordinary ∧ p.lat ≠ p'.lat ∧
      collectionRepr fs (before ++ .observation t d p a :: after) =
        collectionRepr fs (before ++ .observation t d p' a :: after) := by
  refine ⟨⟨45, 45, 75, 75, 0, "km".toList⟩,
    ⟨45 + 1 / 2 ^ 30, 45 + 1 / 2 ^ 30, 75, 75, 0, "km".toList⟩, ?_, ?_, by norm_num, ?_⟩
  · constructor <;> decide +kernel
  · constructor <;> decide +kernel
  · exact shown_alike _ _ _ _ _ _ _ _ (by decide +kernel)

theorem exactText_plain (x : ℚ) : ',' ∉ exactText x := by
  have hd : ∀ n, ',' ∉ natStr n := fun n h => by
    have := natStr_digits _ _ h
    revert this; decide
  unfold exactText
  refine append_plain (append_plain (append_plain ?_ (hd _)) (by decide)) (hd _)
  split_ifs <;> decide

/-- Non-vacuity: with the units of the package and a text of numbers as assumed, an ordinary
observation. -/
example : (∀ u ∈ registry, ',' ∉ u.name) ∧ jd2000 ∈ registry ∧ (∀ x, ',' ∉ exactText x) ∧
    FloatStr exactText ∧ Function.Injective exactText ∧ UnitSystem registry ∧
    ShownWindow.Ordinary registry
      (.observation ⟨9000, jd2000⟩ ⟨30, s⟩ ⟨45, 45, -75, -75, 0, "km".toList⟩ ⟨255, []⟩) := by
  refine ⟨by decide +kernel, by decide +kernel, exactText_plain, exactText_floatStr,
    exactText_injective, registry_system, by decide +kernel, by decide +kernel, ?_, km,
    by decide +kernel, rfl⟩
  constructor <;> decide +kernel

/-- The text of a collection of two windows. -/
example : collectionRepr (fmtFixed 1)
      [.observation ⟨9000, jd2000⟩ ⟨30, s⟩ ⟨45, 45, -75, -75, 0, "km".toList⟩ ⟨255, []⟩,
       .observation ⟨9001, jd2000⟩ ⟨30, s⟩ ⟨45, 45, -75, -75, 0, "km".toList⟩ ⟨2748, []⟩] =
      ("WindowCollection(ObservationWindow(9000.0 jd2000, 30.0 s, 45°00′00.00″N 75°00′00.00″W " ++
        "0.00km, <celest.coordinates.frames.attitude.Attitude object at 0xff>), " ++
        "ObservationWindow(9001.0 jd2000, 30.0 s, 45°00′00.00″N 75°00′00.00″W 0.00km, " ++
        "<celest.coordinates.frames.attitude.Attitude object at 0xabc>))").toList := by
  decide +kernel

end Celest.Windows
