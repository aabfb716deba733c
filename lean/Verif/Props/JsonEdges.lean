import Verif.Props.GeometryJson
import Verif.Props.ConfigDefaults
import Verif.Props.TableClash

/-!
# C102, C131, C132: names of shapes, distances of the shapes, errors and empty settings of configurations
-/

namespace Proposal

/-- The letter is the given small one, or the capital one of it. -/
def Spec.SameLetter (a b : Char) : Prop := 97 ≤ b.toNat ∧ b.toNat ≤ 122 ∧ (a = b ∨ a.toNat + 32 = b.toNat)

private lemma toLower_same {a b : Char} (h : Spec.SameLetter a b) : a.toLower = b ∧ a.toNat < 128 := by
  obtain ⟨h1, h2, h⟩ := h
  have hb : b.toNat = b.val.toNat := rfl
  have ha : a.toNat = a.val.toNat := rfl
  rcases h with rfl | h
  · refine ⟨?_, by omega⟩
    unfold Char.toLower
    rw [dif_neg]
    rintro ⟨-, h4⟩
    have : a.val.toNat ≤ 90 := h4
    omega
  · refine ⟨?_, by omega⟩
    unfold Char.toLower
    rw [dif_pos ⟨show 65 ≤ a.val.toNat by omega, show a.val.toNat ≤ 90 by omega⟩]
    apply Char.ext
    apply UInt32.toNat_inj.mp
    show (a.val + (97 - 65)).toNat = b.val.toNat
    rw [UInt32.toNat_add]
    have : ((97 : UInt32) - 65).toNat = 32 := by decide
    rw [this]
    omega

/-- C102: the names of the shapes are recognised in every mixture of small and capital letters. -/
theorem C102_any_case (s w : String) (h : List.Forall₂ Spec.SameLetter s.toList w.toList) : lowerText s = .ok w := by
  have key : ∀ l l' : List Char, List.Forall₂ Spec.SameLetter l l' → l.map Char.toLower = l' ∧ ∀ c ∈ l, c.toNat < 128 := by
    intro l l' h
    induction h with
    | nil => simp
    | cons h1 _ ih =>
      obtain ⟨e1, e2⟩ := toLower_same h1
      refine ⟨by simp [e1, ih.1], ?_⟩
      intro c hc
      rcases List.mem_cons.mp hc with rfl | hc
      · exact e2
      · exact ih.2 c hc
  obtain ⟨h1, h2⟩ := key _ _ h
  unfold lowerText
  rw [if_pos (by simpa using h2), h1, String.ofList_toList]

example : lowerText "SpHeRe" = .ok "sphere" ∧ lowerText "CYLINDER" = .ok "cylinder" ∧ lowerText "Box" = .ok "box" := by
  refine ⟨C102_any_case _ _ ?_, C102_any_case _ _ ?_, C102_any_case _ _ ?_⟩ <;>
    simp [Spec.SameLetter]

/-- C102: the distances of the shapes are those of the classes: a sphere of the outer and the inner radius, a box with the three sides in
the order length, width and height, a cylinder of the height and the two radii, each around the position. -/
theorem C102_distances (name : String) (n : ℕ) (c : Vec3) (R r x y z : ℝ) :
    (⟨name, n, c, .sphere R r⟩ : Geometry).dist = Sphere.distanceToBorder { center := c, radius := R, inner := r } ∧
      (⟨name, n, c, .box x y z⟩ : Geometry).dist = Box.distanceToBorder { center := c, x := x, y := y, z := z } ∧
      (⟨name, n, c, .cylinder z R r⟩ : Geometry).dist = Cylinder.distanceToBorder { center := c, radius := R, inner := r, z := z } :=
  ⟨rfl, rfl, rfl⟩

/-- C102: an entry with a shape of this name and no origin is rejected with `std::invalid_argument`, for every shape. -/
theorem C102_no_origin (asserts : Bool) (f : String → Option Json) (s w : String) (hs : f "shape" = some (.str s))
    (h : List.Forall₂ Spec.SameLetter s.toList w.toList) (hh : f "hierarchy" = none) (ho : f "origin" = none) :
    createGeometry asserts (.obj f) = .error (.thrown .invalidArgument) := by
  have hb : baseOfJson (.obj f) = .error (.thrown .invalidArgument) := by
    simp only [baseOfJson, pure, Except.pure, bind, Except.bind, valueS, valueI, hs, hh, ho, Json.toStr, thrown, Json.contains,
      Option.isSome_none, Bool.not_false, if_true, throw, throwThe, MonadExceptOf.throw]
  have e1 : sphereOfJson (.obj f) = .error (.thrown .invalidArgument) := by simp only [sphereOfJson, hb, bind, Except.bind]
  have e2 : boxOfJson (.obj f) = .error (.thrown .invalidArgument) := by simp only [boxOfJson, hb, bind, Except.bind]
  have e3 : cylinderOfJson asserts (.obj f) = .error (.thrown .invalidArgument) := by
    simp only [cylinderOfJson, hb, bind, Except.bind]
  simp only [createGeometry, Json.contains, hs, Option.isSome_some, Json.get, Except.bind, Json.toStr, thrown, bind,
    C102_any_case s w h, throw, throwThe, MonadExceptOf.throw, e1, e2, e3, ite_self]

/-- C102: a configuration that is not an object, or that does not name a shape, is rejected with `std::invalid_argument`. -/
theorem C102_no_shape (asserts : Bool) (j : Json) (h : ∀ f, j = .obj f → f "shape" = none) :
    createGeometry asserts j = .error (.thrown .invalidArgument) := by
  cases j with
  | obj f => simp [createGeometry, Json.contains, h f rfl, throw, throwThe, MonadExceptOf.throw]
  | _ => simp [createGeometry, Json.contains, throw, throwThe, MonadExceptOf.throw]

/-- C102: a cylinder without a radius or without a height is not rejected with an exception (disagreement): the program aborts if
assertions are compiled in, otherwise its behaviour is undefined. -/
theorem C102_cylinder_missing (asserts : Bool) (f : String → Option Json) (s : String) (n : ℕ) (c : Vec3)
    (hs : List.Forall₂ Spec.SameLetter s.toList "cylinder".toList) (hb : baseOfJson (.obj f) = .ok (s, n, c))
    (hshape : f "shape" = some (.str s))
    (h : f "outer_radius" = none ∨ ((∃ R, Spec.Number f "outer_radius" R) ∧ f "height" = none)) :
    createGeometry asserts (.obj f) = .error (if asserts then .aborted else .undefined) := by
  have e : cylinderOfJson asserts (.obj f) = .error (if asserts then .aborted else .undefined) := by
    rcases h with h | ⟨⟨R, hR⟩, h⟩
    · simp only [cylinderOfJson, hb, bind, Except.bind, getUnchecked, h]
    · unfold Spec.Number at hR
      simp only [cylinderOfJson, hb, bind, Except.bind, getUnchecked, h, hR, Json.isNumber, Bool.not_true, Bool.and_false,
        Bool.false_eq_true, if_false]
  simp only [createGeometry, Json.contains, hshape, Option.isSome_some, if_true, Json.get, Except.bind, Json.toStr, thrown, bind,
    C102_any_case s _ hs, e]
  rw [if_neg (by decide), if_neg (by decide)]

/-- A cylinder that only says its name and position. -/
example : createGeometry false (.obj fun k => if k = "shape" then some (.str "Cylinder") else
    if k = "origin" then some (.arr [.num 0, .num 0, .num 0]) else none) = .error .undefined := by
  have h : List.Forall₂ Spec.SameLetter "Cylinder".toList "cylinder".toList := by
    simp [Spec.SameLetter]
  refine C102_cylinder_missing false _ "Cylinder" 0 ⟨0, 0, 0⟩ h ?_ (by simp) (.inl (by simp))
  simp [baseOfJson, pure, Except.pure, bind, Except.bind, valueS, valueI, Json.toStr, thrown, Json.contains, Json.get, vec3OfJson]

/-- C132: an empty setting is `null`, an array without elements or an object without keys, and nothing else. Such settings for the cross
sections and the scattering count as not given. -/
theorem C132_empty (j : Json) : j.isEmpty = true ↔ j = .null ∨ j = .arr [] ∨ j = .obj fun _ => none := by
  cases j with
  | null => simp [Json.isEmpty]
  | bool b => simp [Json.isEmpty]
  | num x => simp [Json.isEmpty]
  | str s => simp [Json.isEmpty]
  | arr l => simp [Json.isEmpty]
  | obj f =>
    simp only [Json.isEmpty, reduceCtorEq, Json.obj.injEq, false_or]
    constructor
    · intro h
      by_contra hn
      rw [if_neg (fun hk => hn (funext hk))] at h
      simp at h
    · rintro rfl
      simp

/-- C132: a name that no medium has is rejected with `std::invalid_argument`, for one sector as well as for all sectors. -/
theorem C132_unknown_medium {Geo Dens : Type} (P : ConfigParts Geo Dens) (f : String → Option Json) (n : String)
    (hm : f "medium" = some (.str n)) (h : createMedium (bytes n) = none) (g : Option MediumClass) :
    sectorMedium g (.obj f) = .error (.thrown .invalidArgument) ∧ globalOfJson P (.obj f) = .error (.thrown .invalidArgument) := by
  have e : cfgMedium (.str n) = .error (.thrown .invalidArgument) := by
    simp [cfgMedium, Json.toStr, cfgThrown, h, bind, Except.bind, throw, throwThe, MonadExceptOf.throw]
  constructor
  · simp [sectorMedium, Json.contains, Json.get, hm, cfgThrown, e, bind, Except.bind]
  · simp [globalOfJson, readIf, Json.contains, Json.get, hm, cfgThrown, e, bind, Except.bind, Except.map]

/-- C131: the table of the secondaries of weak interactions has another name for another particle, another medium or another component. -/
theorem C131_weak_names (s : TableSettings) (a : ℕ) (p p' : PDef) (m m' : Med) (c c' : Component)
    (h : weakSecondaryName HTerm.free s a p m c = weakSecondaryName HTerm.free s a p' m' c') :
    Spec.partNums p = Spec.partNums p' ∧ Spec.medNums m = Spec.medNums m' ∧ Spec.compNums c = Spec.compNums c' := by
  unfold weakSecondaryName dndxKey targetKey at h
  rw [Prod.mk.injEq] at h
  obtain ⟨-, h⟩ := h
  obtain ⟨h1, h2⟩ := HTerm.size.inj h
  obtain ⟨h3, -⟩ := HTerm.dbl.inj h1
  obtain ⟨h4, -⟩ := HTerm.int.inj h3
  obtain ⟨h5, -⟩ := HTerm.int.inj h4
  obtain ⟨h6, -⟩ := HTerm.ptr.inj h5
  obtain ⟨h7, h8⟩ := HTerm.size.inj h6
  obtain ⟨-, h9⟩ := HTerm.size.inj h7
  exact ⟨partKey_inj h9, medKey_inj h8, compKey_inj h2⟩

end Proposal
