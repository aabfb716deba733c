import Verif.Model.GeometryJson
import Mathlib.Tactic.Linarith
import Mathlib.Tactic.NormNum

/-!
# Properties of geometries from JSON

C66 (stated radii) and C102 (agreement with the constructors).
-/

namespace Proposal

/-- The object states the number `x` for the key. -/
def Spec.Number (f : String → Option Json) (key : String) (x : ℝ) : Prop := f key = some (.num x)

/-- The object states the number `x` for the key, or `x` is 0 and the key is missing. -/
def Spec.NumberOr0 (f : String → Option Json) (key : String) (x : ℝ) : Prop :=
  f key = some (.num x) ∨ f key = none ∧ x = 0

/-- A number of type `int`. -/
def Spec.WholeInt (x : ℝ) : Prop := ∃ n : ℤ, x = n ∧ -2 ^ 31 ≤ n ∧ n < 2 ^ 31

/-- The object states the shape, the hierarchy (0 if missing) and the centre of a geometry. -/
structure Spec.Base (f : String → Option Json) (shape : String) (hierarchy : ℕ) (c : Vec3) : Prop where
  hasShape : f "shape" = some (.str shape)
  hasHierarchy : NumberOr0 f "hierarchy" hierarchy
  small : hierarchy < 2 ^ 31
  origin : f "origin" = some (.arr [.num c.x, .num c.y, .num c.z])

open Spec

private lemma toInt_whole (n : ℤ) (h1 : -2 ^ 31 ≤ n) (h2 : n < 2 ^ 31) : toInt (n : ℝ) = .ok n := by
  unfold toInt
  have e : (if (0 : ℝ) ≤ (n : ℝ) then ⌊(n : ℝ)⌋ else ⌈(n : ℝ)⌉) = n := by
    split_ifs
    · exact Int.floor_intCast n
    · exact Int.ceil_intCast n
  simp only [e]
  rw [if_pos ⟨h1, h2⟩]

private lemma valueI_whole (f : String → Option Json) (key : String) (n : ℤ) (h1 : -2 ^ 31 ≤ n) (h2 : n < 2 ^ 31)
    (h : NumberOr0 f key n) : valueI (.obj f) key 0 = .ok n := by
  rcases h with h | ⟨h, h0⟩
  · simp only [valueI, h]
    exact toInt_whole n h1 h2
  · have : n = 0 := by exact_mod_cast h0
    simp only [valueI, h, this]

private lemma base_ok (f : String → Option Json) (shape : String) (n : ℕ) (c : Vec3) (h : Base f shape n c) :
    baseOfJson (.obj f) = .ok (shape, n, c) := by
  have hn : ((n : ℤ) : ℝ) = (n : ℝ) := by norm_cast
  have hs : (n : ℤ) < 2 ^ 31 := by exact_mod_cast h.small
  have h1 := valueI_whole f "hierarchy" n (by have := Int.natCast_nonneg n; linarith) hs
    (by rw [hn]; exact h.hasHierarchy)
  have hm : (((n : ℤ) % 2 ^ 32).toNat) = n := by
    rw [Int.emod_eq_of_lt (Int.natCast_nonneg n) (by norm_num at hs ⊢; linarith)]
    exact Int.toNat_natCast n
  simp only [baseOfJson, h1, valueS, h.hasShape, Json.toStr, thrown, Json.contains, h.origin, Json.get, Except.bind,
    vec3OfJson, pure, Except.pure, bind, Option.isSome_some, Bool.not_true, Bool.false_eq_true, if_false, hm]

/-! ## C66: stated radii -/

/-- C66 for a sphere with a whole inner radius: it is constructed with exactly the stated radii, a missing inner radius
is 0, and a negative inner radius or one above the outer radius is rejected. Missing: inner radii with a fraction, see
the theorems below. -/
theorem C66_sphere_partial (f : String → Option Json) (shape : String) (n : ℕ) (c : Vec3) (hb : Base f shape n c)
    (R r : ℝ) (hR : Number f "outer_radius" R) (hr : NumberOr0 f "inner_radius" r) (hw : WholeInt r) :
    (0 ≤ r ∧ r ≤ R → sphereOfJson (.obj f) = .ok ⟨shape, n, c, .sphere R r⟩) ∧
    (r < 0 ∨ R < r → sphereOfJson (.obj f) = .error (.thrown .logicError)) := by
  obtain ⟨k, rfl, h1, h2⟩ := hw
  have hv := valueI_whole f "inner_radius" k h1 h2 hr
  unfold Number at hR
  have step : sphereOfJson (.obj f) = (if ((k : ℤ) : ℝ) < 0 then .error (.thrown .logicError)
      else if R < k then .error (.thrown .logicError) else .ok ⟨shape, n, c, .sphere R k⟩) := by
    simp only [sphereOfJson, base_ok f shape n c hb, Json.get, hR, thrown, Json.isNumber, Json.toDouble, hv, bind,
      Except.bind, Bool.not_true, Bool.false_eq_true, if_false, pure, Except.pure, throw, throwThe,
      MonadExceptOf.throw]
  rw [step]
  refine ⟨?_, ?_⟩
  · rintro ⟨ha, hb'⟩
    rw [if_neg (not_lt.2 ha), if_neg (not_lt.2 hb')]
  · rintro (ha | ha)
    · rw [if_pos ha]
    · split_ifs <;> rfl

private lemma sphere_steps (f : String → Option Json) (shape : String) (n : ℕ) (c : Vec3) (hb : Base f shape n c)
    (R : ℝ) (hR : Number f "outer_radius" R) (k : ℤ) (hv : valueI (.obj f) "inner_radius" 0 = .ok k) :
    sphereOfJson (.obj f) = (if (k : ℝ) < 0 then .error (.thrown .logicError)
      else if R < k then .error (.thrown .logicError) else .ok ⟨shape, n, c, .sphere R k⟩) := by
  unfold Number at hR
  simp only [sphereOfJson, base_ok f shape n c hb, Json.get, hR, thrown, Json.isNumber, Json.toDouble, hv, bind,
    Except.bind, Bool.not_true, Bool.false_eq_true, if_false, pure, Except.pure, throw, throwThe, MonadExceptOf.throw]

private lemma valueI_floor (f : String → Option Json) (r : ℝ) (h : Number f "inner_radius" r) (h0 : 0 ≤ r)
    (h1 : r < 2 ^ 31) : valueI (.obj f) "inner_radius" 0 = .ok ⌊r⌋ := by
  unfold Number at h
  simp only [valueI, h, toInt, if_pos h0]
  rw [if_pos]
  refine ⟨?_, ?_⟩
  · have : (0 : ℤ) ≤ ⌊r⌋ := Int.floor_nonneg.2 h0
    norm_num
    linarith
  · rw [Int.floor_lt]
    norm_num at h1 ⊢
    exact h1

private lemma valueI_ceil (f : String → Option Json) (r : ℝ) (h : Number f "inner_radius" r) (h0 : r < 0)
    (h1 : -1 < r) : valueI (.obj f) "inner_radius" 0 = .ok 0 := by
  unfold Number at h
  have e : ⌈r⌉ = 0 := by
    rw [Int.ceil_eq_iff]
    push_cast
    constructor <;> linarith
  simp only [valueI, h, toInt, if_neg (not_le.2 h0), e]
  norm_num

/-- C66: what happens to an inner radius with a fraction. The fraction is dropped, so that the inner radius is up to one
smaller than stated (disagreement). -/
theorem C66_fraction_dropped (f : String → Option Json) (shape : String) (n : ℕ) (c : Vec3) (hb : Base f shape n c)
    (R r : ℝ) (hR : Number f "outer_radius" R) (hr : Number f "inner_radius" r) (h0 : 0 ≤ r) (h1 : r ≤ R)
    (h2 : r < 2 ^ 31) :
    sphereOfJson (.obj f) = .ok ⟨shape, n, c, .sphere R ⌊r⌋⟩ ∧ ((⌊r⌋ : ℝ) = r ↔ ∃ k : ℤ, r = k) := by
  have hv := valueI_floor f r hr h0 h2
  have hf : (0 : ℝ) ≤ (⌊r⌋ : ℤ) := by exact_mod_cast Int.floor_nonneg.2 h0
  refine ⟨?_, ?_⟩
  · rw [sphere_steps f shape n c hb R hR _ hv, if_neg (not_lt.2 hf), if_neg]
    exact not_lt.2 ((Int.floor_le r).trans h1)
  · constructor
    · exact fun h => ⟨⌊r⌋, h.symm⟩
    · rintro ⟨k, rfl⟩
      rw [Int.floor_intCast]

/-- C66: an inner radius between -1 and 0 is accepted as 0 instead of being rejected (disagreement). -/
theorem C66_negative_accepted (f : String → Option Json) (shape : String) (n : ℕ) (c : Vec3) (hb : Base f shape n c)
    (R r : ℝ) (hR : Number f "outer_radius" R) (hr : Number f "inner_radius" r) (h0 : r < 0) (h1 : -1 < r)
    (h2 : 0 ≤ R) : sphereOfJson (.obj f) = .ok ⟨shape, n, c, .sphere R 0⟩ := by
  rw [sphere_steps f shape n c hb R hR _ (valueI_ceil f r hr h0 h1)]
  push_cast
  rw [if_neg (lt_irrefl _), if_neg (not_lt.2 h2)]

/-- C66: an inner radius above the outer one is accepted if the outer one is not below its whole part (disagreement). -/
theorem C66_above_accepted (f : String → Option Json) (shape : String) (n : ℕ) (c : Vec3) (hb : Base f shape n c)
    (R r : ℝ) (hR : Number f "outer_radius" R) (hr : Number f "inner_radius" r) (h0 : 0 ≤ r) (h1 : R < r)
    (h2 : (⌊r⌋ : ℝ) ≤ R) (h3 : r < 2 ^ 31) :
    sphereOfJson (.obj f) = .ok ⟨shape, n, c, .sphere R ⌊r⌋⟩ ∧ R < r := by
  have hv := valueI_floor f r hr h0 h3
  have hf : (0 : ℝ) ≤ (⌊r⌋ : ℤ) := by exact_mod_cast Int.floor_nonneg.2 h0
  rw [sphere_steps f shape n c hb R hR _ hv, if_neg (not_lt.2 hf), if_neg (not_lt.2 h2)]
  exact ⟨rfl, h1⟩

/-- C66: whatever is stated, a sphere that is constructed has an inner radius between 0 and the outer radius, and the
outer radius is the stated one. -/
theorem C66_sphere_ordered (f : String → Option Json) (g : Geometry) (h : sphereOfJson (.obj f) = .ok g) :
    ∃ R r, g.shape = .sphere R r ∧ Number f "outer_radius" R ∧ 0 ≤ r ∧ r ≤ R := by
  unfold sphereOfJson at h
  cases hb : baseOfJson (.obj f) with
  | error e => simp [hb, bind, Except.bind] at h
  | ok b =>
    simp only [hb, bind, Except.bind, Json.get, thrown] at h
    cases hf : f "outer_radius" with
    | none => simp [hf] at h
    | some o =>
      simp only [hf] at h
      cases o with
      | num R =>
        simp only [Json.isNumber, Json.toDouble, Bool.not_true, Bool.false_eq_true, if_false, pure, Except.pure] at h
        cases hv : valueI (.obj f) "inner_radius" 0 with
        | error e => simp [hv] at h
        | ok k =>
          simp only [hv] at h
          by_cases h1 : (k : ℝ) < 0
          · simp [h1, throw, throwThe, MonadExceptOf.throw] at h
          · simp only [h1, if_false] at h
            by_cases h2 : R < (k : ℝ)
            · simp [h2, throw, throwThe, MonadExceptOf.throw] at h
            · simp only [h2, if_false] at h
              obtain rfl := Except.ok.inj h
              exact ⟨R, k, rfl, hf, not_lt.1 h1, not_lt.1 h2⟩
      | _ => simp [Json.isNumber, throw, throwThe, MonadExceptOf.throw] at h

/-- C66 for a cylinder with a whole inner radius: it is constructed with exactly the stated numbers if they are in
order; otherwise a program with assertions ends. Missing: inner radii with a fraction, and programs without assertions,
see the theorem below. -/
theorem C66_cylinder_partial (asserts : Bool) (f : String → Option Json) (shape : String) (n : ℕ) (c : Vec3)
    (hb : Base f shape n c) (R r z : ℝ) (hR : Number f "outer_radius" R) (hz : Number f "height" z)
    (hr : NumberOr0 f "inner_radius" r) (hw : WholeInt r) :
    (0 ≤ r ∧ r < R ∧ 0 < z → cylinderOfJson asserts (.obj f) = .ok ⟨shape, n, c, .cylinder z R r⟩) ∧
    (r < 0 ∨ R ≤ r ∨ z ≤ 0 → cylinderOfJson true (.obj f) = .error .aborted) := by
  obtain ⟨k, rfl, h1, h2⟩ := hw
  have hv := valueI_whole f "inner_radius" k h1 h2 hr
  unfold Number at hR hz
  refine ⟨?_, ?_⟩
  · rintro ⟨ha, hb', hc⟩
    simp only [cylinderOfJson, base_ok f shape n c hb, getUnchecked, hR, hz, thrown, Json.isNumber, Json.toDouble, hv,
      bind, Except.bind, Bool.not_true, Bool.and_false, Bool.false_eq_true, if_false, pure, Except.pure, ge_iff_le, ha,
      gt_iff_lt, hb', hc, not_true_eq_false, and_false]
  · intro h
    simp only [cylinderOfJson, base_ok f shape n c hb, getUnchecked, hR, hz, thrown, Json.isNumber, Json.toDouble, hv,
      bind, Except.bind, Bool.not_true, Bool.and_false, Bool.false_eq_true, if_false, pure, Except.pure, ge_iff_le,
      gt_iff_lt, true_and, throw, throwThe, MonadExceptOf.throw]
    rcases h with h | h | h
    · rw [if_pos (not_le.2 h)]
    · rw [if_pos (not_lt.2 h)]
      split_ifs <;> rfl
    · rw [if_pos (not_lt.2 h)]
      split_ifs <;> rfl

/-- C66: without assertions a cylinder is constructed from any whole inner radius, also a negative one or one above the
outer radius (disagreement). -/
theorem C66_cylinder_unchecked (f : String → Option Json) (shape : String) (n : ℕ) (c : Vec3) (hb : Base f shape n c)
    (R r z : ℝ) (hR : Number f "outer_radius" R) (hz : Number f "height" z) (hr : NumberOr0 f "inner_radius" r)
    (hw : WholeInt r) : cylinderOfJson false (.obj f) = .ok ⟨shape, n, c, .cylinder z R r⟩ := by
  obtain ⟨k, rfl, h1, h2⟩ := hw
  have hv := valueI_whole f "inner_radius" k h1 h2 hr
  unfold Number at hR hz
  simp only [cylinderOfJson, base_ok f shape n c hb, getUnchecked, hR, hz, thrown, Json.isNumber, Json.toDouble, hv,
    bind, Except.bind, Bool.not_true, Bool.and_false, Bool.false_eq_true, if_false, pure, Except.pure, false_and]

/-- A configuration of a hollow sphere with hierarchy 3 for the examples. -/
private def config (outer inner : ℝ) : String → Option Json := fun key =>
  if key = "shape" then some (.str "sphere")
  else if key = "hierarchy" then some (.num 3)
  else if key = "origin" then some (.arr [.num 1, .num 2, .num 3])
  else if key = "outer_radius" then some (.num outer)
  else if key = "inner_radius" then some (.num inner)
  else if key = "height" then some (.num 7)
  else none

private lemma config_base (a b : ℝ) : Base (config a b) "sphere" 3 ⟨1, 2, 3⟩ :=
  ⟨by simp [config], .inl (by simp [config]), by norm_num, by simp [config]⟩

/-- Radii 2 and 1 meet the hypotheses of C66. -/
example : sphereOfJson (.obj (config 2 1)) = .ok ⟨"sphere", 3, ⟨1, 2, 3⟩, .sphere 2 1⟩ := by
  refine (C66_sphere_partial _ _ _ _ (config_base 2 1) 2 1 (by simp [Number, config]) (.inl (by simp [config]))
    ⟨1, by norm_num⟩).1 (by norm_num)

/-- An inner radius of 3/2 becomes 1, within an outer radius of 2 and within one of 5/4; -1/2 becomes 0. -/
example : sphereOfJson (.obj (config 2 (3 / 2))) = .ok ⟨"sphere", 3, ⟨1, 2, 3⟩, .sphere 2 1⟩ ∧
    sphereOfJson (.obj (config (5 / 4) (3 / 2))) = .ok ⟨"sphere", 3, ⟨1, 2, 3⟩, .sphere (5 / 4) 1⟩ ∧
    sphereOfJson (.obj (config 2 (-1 / 2))) = .ok ⟨"sphere", 3, ⟨1, 2, 3⟩, .sphere 2 0⟩ := by
  have e : ⌊(3 / 2 : ℝ)⌋ = 1 := by
    rw [Int.floor_eq_iff]
    norm_num
  refine ⟨?_, ?_, ?_⟩
  · have := (C66_fraction_dropped _ _ _ _ (config_base 2 (3 / 2)) 2 (3 / 2) (by simp [Number, config])
      (by simp [Number, config]) (by norm_num) (by norm_num) (by norm_num)).1
    rw [e] at this
    exact_mod_cast this
  · have := (C66_above_accepted _ _ _ _ (config_base (5 / 4) (3 / 2)) (5 / 4) (3 / 2) (by simp [Number, config])
      (by simp [Number, config]) (by norm_num) (by norm_num) (by rw [e]; norm_num) (by norm_num)).1
    rw [e] at this
    exact_mod_cast this
  · exact C66_negative_accepted _ _ _ _ (config_base 2 (-1 / 2)) 2 (-1 / 2) (by simp [Number, config])
      (by simp [Number, config]) (by norm_num) (by norm_num) (by norm_num)

/-- Without assertions a cylinder with the radii 2 and 5 is constructed. -/
example : cylinderOfJson false (.obj (config 2 5)) = .ok ⟨"sphere", 3, ⟨1, 2, 3⟩, .cylinder 7 2 5⟩ :=
  C66_cylinder_unchecked _ _ _ _ (config_base 2 5) 2 5 7 (by simp [Number, config]) (by simp [Number, config])
    (.inl (by simp [config])) ⟨5, by norm_num⟩

/-! ## C102: agreement with the constructors -/

/-- C102: two geometries compare equal exactly if name, hierarchy, position and all lengths agree; then they have the
same distances. -/
theorem C102_equality (g h : Geometry) : (g.equal h = true ↔ g = h) ∧ (g.equal h = true → g.dist = h.dist) := by
  have key : g.equal h = true ↔ g = h := by
    obtain ⟨gn, gh, gp, gs⟩ := g
    obtain ⟨hn, hh, hp, hs⟩ := h
    simp only [Geometry.equal, Geometry.mk.injEq]
    by_cases h1 : gp = hp
    · by_cases h2 : gn = hn
      · by_cases h3 : gh = hh
        · simp only [h1, h2, h3, ne_eq, not_true_eq_false, if_false, true_and]
          cases gs <;> cases hs <;> simp [Shape.compare] <;> tauto
        · simp [h1, h2, h3]
      · simp [h1, h2]
    · simp [h1]
  exact ⟨key, fun h' => by rw [key.1 h']⟩

private lemma create_steps (asserts : Bool) (f : String → Option Json) (shape low : String)
    (hs : f "shape" = some (.str shape)) (hl : lowerText shape = .ok low) :
    createGeometry asserts (.obj f) = (if low = "sphere" then sphereOfJson (.obj f)
      else if low = "box" then boxOfJson (.obj f) else if low = "cylinder" then cylinderOfJson asserts (.obj f)
      else .error (.thrown .invalidArgument)) := by
  simp only [createGeometry, Json.contains, hs, Option.isSome_some, if_true, Json.get, Except.bind, Json.toStr, thrown,
    bind, hl, throw, throwThe, MonadExceptOf.throw]

/-- C102: a sphere with whole inner radius, created from JSON with the name of the shape in any case, has the hierarchy,
position and distances of the sphere made by the constructor. It compares equal to that one exactly if the name was
written as "Sphere" (disagreement: otherwise equal objects differ). -/
theorem C102_sphere_partial (asserts : Bool) (f : String → Option Json) (shape : String) (n : ℕ) (c : Vec3)
    (hb : Base f shape n c) (hl : lowerText shape = .ok "sphere") (R r : ℝ) (hR : Number f "outer_radius" R)
    (hr : NumberOr0 f "inner_radius" r) (hw : WholeInt r) (h0 : 0 ≤ r) (h1 : r ≤ R) :
    ∃ g, createGeometry asserts (.obj f) = .ok g ∧ g.hierarchy = n ∧ g.position = c ∧
      g.dist = (newSphere c R r).dist ∧ g.name = shape ∧
      (g.equal ((newSphere c R r).setHierarchy n) = true ↔ shape = "Sphere") := by
  have hN : newSphere c R r = ⟨"Sphere", 0, c, .sphere R r⟩ := by
    unfold newSphere Sphere.mk'
    rw [if_neg (not_lt.2 h1)]
  refine ⟨⟨shape, n, c, .sphere R r⟩, ?_, rfl, rfl, by rw [hN]; rfl, rfl, ?_⟩
  · rw [create_steps asserts f shape _ hb.hasShape hl, if_pos rfl]
    exact (C66_sphere_partial f shape n c hb R r hR hr hw).1 ⟨h0, h1⟩
  · rw [(C102_equality _ _).1, hN]
    simp [Geometry.setHierarchy]

/-- C102 for a box: it takes any sides that are not negative. -/
theorem C102_box_partial (asserts : Bool) (f : String → Option Json) (shape : String) (n : ℕ) (c : Vec3)
    (hb : Base f shape n c) (hl : lowerText shape = .ok "box") (x y z : ℝ) (hx : Number f "length" x)
    (hy : Number f "width" y) (hz : Number f "height" z) :
    (0 ≤ x ∧ 0 ≤ y ∧ 0 ≤ z → ∃ g, createGeometry asserts (.obj f) = .ok g ∧ g.hierarchy = n ∧ g.position = c ∧
      g.dist = (newBox c x y z).dist ∧ g.name = shape ∧
      (g.equal ((newBox c x y z).setHierarchy n) = true ↔ shape = "Box")) ∧
    (x < 0 ∨ y < 0 ∨ z < 0 → createGeometry asserts (.obj f) = .error (.thrown .logicError)) := by
  have steps : createGeometry asserts (.obj f) = (if x < 0 then .error (.thrown .logicError)
      else if y < 0 then .error (.thrown .logicError) else if z < 0 then .error (.thrown .logicError)
      else .ok ⟨shape, n, c, .box x y z⟩) := by
    rw [create_steps asserts f shape _ hb.hasShape hl, if_neg (by decide), if_pos rfl]
    unfold Number at hx hy hz
    simp only [boxOfJson, base_ok f shape n c hb, Json.get, hx, hy, hz, thrown, Json.isNumber, Json.toDouble, bind,
      Except.bind, Bool.not_true, Bool.false_eq_true, if_false, pure, Except.pure, throw, throwThe, MonadExceptOf.throw]
  rw [steps]
  refine ⟨?_, ?_⟩
  · rintro ⟨h1, h2, h3⟩
    rw [if_neg (not_lt.2 h1), if_neg (not_lt.2 h2), if_neg (not_lt.2 h3)]
    refine ⟨_, rfl, rfl, rfl, rfl, rfl, ?_⟩
    rw [(C102_equality _ _).1]
    simp [Geometry.setHierarchy, newBox]
  · rintro (h | h | h)
    · rw [if_pos h]
    · rw [if_pos h]
      split_ifs <;> rfl
    · rw [if_pos h]
      split_ifs <;> rfl

/-- C102 for a cylinder with whole inner radius. -/
theorem C102_cylinder_partial (asserts : Bool) (f : String → Option Json) (shape : String) (n : ℕ) (c : Vec3)
    (hb : Base f shape n c) (hl : lowerText shape = .ok "cylinder") (R r z : ℝ) (hR : Number f "outer_radius" R)
    (hz : Number f "height" z) (hr : NumberOr0 f "inner_radius" r) (hw : WholeInt r) (h0 : 0 ≤ r) (h1 : r < R)
    (h2 : 0 < z) :
    ∃ g, createGeometry asserts (.obj f) = .ok g ∧ g.hierarchy = n ∧ g.position = c ∧
      g.dist = (newCylinder c z R r).dist ∧ g.name = shape ∧
      (g.equal ((newCylinder c z R r).setHierarchy n) = true ↔ shape = "Cylinder") := by
  have hN : newCylinder c z R r = ⟨"Cylinder", 0, c, .cylinder z R r⟩ := by
    unfold newCylinder Cylinder.mk'
    rw [if_neg (not_lt.2 h1.le)]
  refine ⟨⟨shape, n, c, .cylinder z R r⟩, ?_, rfl, rfl, by rw [hN]; rfl, rfl, ?_⟩
  · rw [create_steps asserts f shape _ hb.hasShape hl, if_neg (by decide), if_neg (by decide), if_pos rfl]
    exact (C66_cylinder_partial asserts f shape n c hb R r z hR hz hr hw).1 ⟨h0, h1, h2⟩
  · rw [(C102_equality _ _).1, hN]
    simp [Geometry.setHierarchy]

/-- C102: the two radii may be given to the constructors in any order: the larger one becomes the outer radius. -/
theorem C102_radii (c : Vec3) (z R r : ℝ) :
    (newSphere c R r).shape = .sphere (max R r) (min R r) ∧ (newSphere c R r).position = c ∧
    (newCylinder c z R r).shape = .cylinder z (max R r) (min R r) ∧ (newCylinder c z R r).position = c := by
  unfold newSphere newCylinder Sphere.mk' Cylinder.mk'
  by_cases h : r > R
  · simp only [if_pos h, max_eq_right h.le, min_eq_left h.le]
    simp
  · simp only [if_neg h, max_eq_left (not_lt.1 h), min_eq_right (not_lt.1 h)]
    simp

/-- C102: a missing or unknown shape and a missing origin are rejected. -/
theorem C102_rejected (asserts : Bool) (f : String → Option Json) :
    (f "shape" = none → createGeometry asserts (.obj f) = .error (.thrown .invalidArgument)) ∧
    (∀ shape low, f "shape" = some (.str shape) → lowerText shape = .ok low →
      low ≠ "sphere" → low ≠ "box" → low ≠ "cylinder" →
      createGeometry asserts (.obj f) = .error (.thrown .invalidArgument)) ∧
    (f "origin" = none → ∀ g, createGeometry asserts (.obj f) ≠ .ok g) := by
  refine ⟨?_, ?_, ?_⟩
  · intro h
    simp [createGeometry, Json.contains, h, throw, throwThe, MonadExceptOf.throw]
  · intro shape low hs hl h1 h2 h3
    rw [create_steps asserts f shape low hs hl, if_neg h1, if_neg h2, if_neg h3]
  · intro h g hg
    have hb : ∀ b, baseOfJson (.obj f) ≠ .ok b := by
      intro b hb
      simp only [baseOfJson, pure, Except.pure, bind, Except.bind, Json.contains, h, Option.isSome_none, Bool.not_false,
        if_true, throw, throwThe, MonadExceptOf.throw] at hb
      cases h1 : thrown (valueS (.obj f) "shape" "unknown") with
      | error e => simp [h1] at hb
      | ok a =>
        cases h2 : valueI (.obj f) "hierarchy" 0 with
        | error e => simp [h1, h2] at hb
        | ok a => simp [h1, h2] at hb
    cases hc : baseOfJson (.obj f) with
    | ok b => exact hb b hc
    | error e =>
      have e1 : sphereOfJson (.obj f) = .error e := by simp only [sphereOfJson, hc, bind, Except.bind]
      have e2 : boxOfJson (.obj f) = .error e := by simp only [boxOfJson, hc, bind, Except.bind]
      have e3 : cylinderOfJson asserts (.obj f) = .error e := by simp only [cylinderOfJson, hc, bind, Except.bind]
      simp only [createGeometry, e1, e2, e3, bind, Except.bind] at hg
      split_ifs at hg
      · cases h1 : thrown (((Json.obj f).get "shape").bind Json.toStr) with
        | error e => simp only [Except.bind] at h1; simp [h1] at hg
        | ok s =>
          simp only [Except.bind] at h1
          simp only [h1] at hg
          cases h2 : lowerText s with
          | error e => simp [h2] at hg
          | ok l =>
            simp only [h2] at hg
            split_ifs at hg

/-- C102: a negative hierarchy is not rejected but becomes the largest of all (disagreement). -/
theorem C102_negative_hierarchy (f : String → Option Json) (shape : String) (c : Vec3)
    (hs : f "shape" = some (.str shape)) (hh : Number f "hierarchy" (-1))
    (ho : f "origin" = some (.arr [.num c.x, .num c.y, .num c.z])) (R : ℝ) (hR : Number f "outer_radius" R) (h0 : 0 ≤ R)
    (hr : f "inner_radius" = none) :
    sphereOfJson (.obj f) = .ok ⟨shape, 2 ^ 32 - 1, c, .sphere R 0⟩ := by
  have h1 : valueI (.obj f) "hierarchy" 0 = .ok (-1) := by
    have := valueI_whole f "hierarchy" (-1) (by norm_num) (by norm_num)
      (.inl (by unfold Number at hh; rw [hh]; norm_num))
    exact this
  have hb : baseOfJson (.obj f) = .ok (shape, 2 ^ 32 - 1, c) := by
    have e : (((-1 : ℤ) % 2 ^ 32).toNat) = 2 ^ 32 - 1 := by decide
    simp only [baseOfJson, h1, valueS, hs, Json.toStr, thrown, Json.contains, ho, Json.get, Except.bind,
      vec3OfJson, pure, Except.pure, bind, Option.isSome_some, Bool.not_true, Bool.false_eq_true, if_false, e]
  unfold Number at hR
  have hv : valueI (.obj f) "inner_radius" 0 = .ok 0 := by simp only [valueI, hr]
  simp only [sphereOfJson, hb, Json.get, hR, thrown, Json.isNumber, Json.toDouble, hv, bind, Except.bind,
    Bool.not_true, Bool.false_eq_true, if_false, pure, Except.pure, throw, throwThe, MonadExceptOf.throw]
  rw [if_neg (by norm_num), if_neg (by push_cast; exact not_lt.2 h0)]
  norm_num

/-- The spelling of the configurations of the manual: "sphere" does not equal the object of the constructor. -/
example : ∃ g, createGeometry true (.obj (config 2 1)) = .ok g ∧
    g.equal ((newSphere ⟨1, 2, 3⟩ 2 1).setHierarchy 3) = false ∧ g.dist = (newSphere ⟨1, 2, 3⟩ 2 1).dist := by
  obtain ⟨g, h1, _, _, h4, _, h6⟩ := C102_sphere_partial true _ "sphere" 3 ⟨1, 2, 3⟩ (config_base 2 1) (by decide) 2 1
    (by simp [Number, config]) (.inl (by simp [config])) ⟨1, by norm_num⟩ (by norm_num) (by norm_num)
  refine ⟨g, h1, ?_, h4⟩
  rw [Bool.eq_false_iff, ne_eq, h6]
  decide

end Proposal
