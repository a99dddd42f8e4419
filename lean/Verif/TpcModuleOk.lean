/-
The conversions of a module do not fail for the coordinate types there are, whatever the functions of `<cmath>` return.
-/
import Verif.TpcModuleLemmas

set_option autoImplicit false
set_option linter.unusedSectionVars false

namespace Gear.TpcModule.Any

open Gear.TpcModule.Spec

variable {K : Type} [Field K] [LinearOrder K] [IsStrictOrderedRing K] [FloorRing K] (F : TrigFns K)

theorem mirror_ok {m : Module K} (ht : Known m.momsCoordinateType) (x y : K) : ∃ p, mirror F m x y = .ok p := by
  unfold mirror
  split_ifs with h1 h2 h3
  · exact ⟨_, rfl⟩
  · exact ⟨_, rfl⟩
  · exact absurd ht fun h => h.elim h3 h2
  · exact ⟨_, rfl⟩

theorem toGlobal_ok {m : Module K} (ht : Known m.momsCoordinateType) (x y : K) : ∃ p, toGlobal F m x y = .ok p := by
  unfold toGlobal
  dsimp only
  rcases ht with ht | ht
  · rw [if_neg (show ¬ m.momsCoordinateType = POLAR by rw [ht]; exact polar_ne), if_pos ht]; exact ⟨_, rfl⟩
  · rw [if_pos ht]; exact ⟨_, rfl⟩

theorem localToGlobal_ok {m : Module K} (ht : Known m.momsCoordinateType)
    (hl : Known m.layout.coordinateType) (x y : K) : ∃ p, localToGlobal F m x y = .ok p := by
  unfold localToGlobal
  by_cases h1 : m.localIsGlobal = true
  · rw [if_pos h1]; exact ⟨_, rfl⟩
  · rw [if_neg h1]
    rcases hl with hl | hl
    · rw [if_neg (by rw [hl]; exact polar_ne), if_pos hl]; exact toGlobal_ok F ht _ _
    · rw [if_pos hl]
      dsimp only
      by_cases h2 : m.momsCoordinateType = POLAR ∧ m.offsetCartesian.1 = 0 ∧ m.offsetCartesian.2 = 0
      · rw [if_pos h2]; exact ⟨_, rfl⟩
      · rw [if_neg h2]; exact toGlobal_ok F ht _ _

theorem toLocal_ok {m : Module K} (hl : Known m.layout.coordinateType) (x y : K) :
    ∃ p, toLocal F m x y = .ok p := by
  unfold toLocal
  rcases hl with hl | hl
  · dsimp only
    rw [if_neg (by rw [hl]; exact polar_ne), if_pos hl]; exact ⟨_, rfl⟩
  · dsimp only
    rw [if_pos hl]; exact ⟨_, rfl⟩

theorem cartesian_ok {m : Module K} (ht : Known m.momsCoordinateType) (x y : K) :
    ∃ p, cartesian F m x y = .ok p := by
  unfold cartesian
  rcases ht with ht | ht
  · rw [if_neg (by rw [ht]; exact polar_ne), if_pos ht]; exact ⟨_, rfl⟩
  · rw [if_pos ht]; exact ⟨_, rfl⟩

theorem globalToLocal_ok {m : Module K} (ht : Known m.momsCoordinateType)
    (hl : Known m.layout.coordinateType) (x y : K) : ∃ p, globalToLocal F m x y = .ok p := by
  unfold globalToLocal
  by_cases h1 : m.localIsGlobal = true
  · rw [if_pos h1]; exact ⟨_, rfl⟩
  · rw [if_neg h1]
    obtain ⟨d, d1⟩ := mirror_ok F ht x y
    rw [d1, Res.bind_ok]
    by_cases h2 : m.momsCoordinateType = POLAR ∧ m.layout.coordinateType = POLAR ∧
        m.offsetCartesian.1 = 0 ∧ m.offsetCartesian.1 = 0
    · rw [if_pos h2]; exact ⟨_, rfl⟩
    · rw [if_neg h2]
      obtain ⟨c, c1⟩ := cartesian_ok F ht d.1 d.2
      rw [c1, Res.bind_ok]
      exact toLocal_ok F hl _ _

theorem cornerBox_ok {m : Module K} (ht : Known m.momsCoordinateType)
    (hl : Known m.layout.coordinateType) (e : Ext K) : ∃ b, cornerBox F m e = .ok b := by
  unfold cornerBox
  obtain ⟨p0, h0⟩ := localToGlobal_ok F ht hl e.e0 e.e2
  obtain ⟨p1, h1⟩ := localToGlobal_ok F ht hl e.e0 e.e3
  obtain ⟨p2, h2⟩ := localToGlobal_ok F ht hl e.e1 e.e2
  obtain ⟨p3, h3⟩ := localToGlobal_ok F ht hl e.e1 e.e3
  simp only [h0, h1, h2, h3, Res.bind_ok, Res.pure_eq]
  exact ⟨_, rfl⟩

theorem inSector_ok {m : Module K} (ht : Known m.momsCoordinateType)
    (hl : Known m.layout.coordinateType) (e : Ext K) (x y : K) : ∃ b, inSector F m e x y = .ok b := by
  unfold inSector
  obtain ⟨p, h⟩ := globalToLocal_ok F ht hl x y
  rw [h, Res.bind_ok]
  exact ⟨_, rfl⟩

theorem globalExtentCartesianPolar_ok {m : Module K} (ht : Known m.momsCoordinateType)
    (hl : Known m.layout.coordinateType) (e : Ext K) :
    ∃ b, globalExtentCartesianPolar F m e = .ok b := by
  unfold globalExtentCartesianPolar
  obtain ⟨b, h⟩ := cornerBox_ok F ht hl e
  obtain ⟨o, h0⟩ := localToGlobal_ok F ht hl 0 0
  obtain ⟨b1, h1⟩ := inSector_ok F ht hl e o.1 (o.2 + e.e1)
  obtain ⟨b2, h2⟩ := inSector_ok F ht hl e o.1 (o.2 - e.e1)
  obtain ⟨b3, h3⟩ := inSector_ok F ht hl e (o.1 + e.e1) o.2
  obtain ⟨b4, h4⟩ := inSector_ok F ht hl e (o.1 - e.e1) o.2
  simp only [h, h0, h1, h2, h3, h4, Res.bind_ok, Res.pure_eq]
  exact ⟨_, rfl⟩

theorem polarPhi_ok {m : Module K} (ht : Known m.momsCoordinateType)
    (hl : Known m.layout.coordinateType) (e : Ext K) (o g0 g1 g2 g3 : K × K) :
    ∃ b, polarPhi F m e o g0 g1 g2 g3 = .ok b := by
  unfold polarPhi
  split_ifs
  · obtain ⟨og, h0⟩ := localToGlobal_ok F ht hl 0 0
    rw [h0, Res.bind_ok]
    unfold polarPhiOutside
    dsimp only
    generalize (if m.zPosition > 0 then og.2 - F.asin (e.e1 / o.1)
      else og.2 + F.asin (e.e1 / o.1)) = a
    generalize (if m.zPosition > 0 then og.2 + F.asin (e.e1 / o.1)
      else og.2 - F.asin (e.e1 / o.1)) = b
    obtain ⟨p, hp⟩ := globalToLocal_ok F ht hl (F.sqrt (og.1 * og.1 - e.e1 * e.e1)) a
    obtain ⟨q, hq⟩ := globalToLocal_ok F ht hl (F.sqrt (og.1 * og.1 - e.e1 * e.e1)) b
    rw [hp, Res.bind_ok, hq, Res.bind_ok]
    exact ⟨_, rfl⟩
  · exact ⟨_, rfl⟩
  · exact ⟨_, rfl⟩

theorem globalExtentPolarPolar_ok {m : Module K} (ht : Known m.momsCoordinateType)
    (hl : Known m.layout.coordinateType) (e : Ext K) :
    ∃ b, globalExtentPolarPolar F m e = .ok b := by
  unfold globalExtentPolarPolar
  split_ifs
  · exact ⟨_, rfl⟩
  · obtain ⟨o, h⟩ := globalToLocal_ok F ht hl 0 0
    obtain ⟨p0, h0⟩ := localToGlobal_ok F ht hl e.e0 e.e2
    obtain ⟨p1, h1⟩ := localToGlobal_ok F ht hl e.e0 e.e3
    obtain ⟨p2, h2⟩ := localToGlobal_ok F ht hl e.e1 e.e2
    obtain ⟨p3, h3⟩ := localToGlobal_ok F ht hl e.e1 e.e3
    obtain ⟨phi, h4⟩ := polarPhi_ok F ht hl e o p0 p1 p2 p3
    simp only [h, h0, h1, h2, h3, h4, Res.bind_ok, Res.pure_eq]
    exact ⟨_, rfl⟩

theorem globalExtent_ok {m : Module K} (ht : Known m.momsCoordinateType)
    (hl : Known m.layout.coordinateType) (hu : ¬ Unsupported m.momsCoordinateType m.layout.coordinateType)
    (e : Ext K) : ∃ b, globalExtent F m e = .ok b := by
  unfold globalExtent
  split_ifs with h1 h2 h3 h4 h5 h6
  · exact globalExtentPolarPolar_ok F ht hl e
  · exact absurd ⟨h1, h3⟩ hu
  · exact absurd hl (fun h => h.elim h3 h2)
  · exact globalExtentCartesianPolar_ok F ht hl e
  · exact cornerBox_ok F ht hl e
  · exact absurd hl (fun h => h.elim h6 h5)
  · exact absurd ht (fun h => h.elim h4 h1)

theorem localExtent_ok {m : Module K} (hl : Known m.layout.coordinateType) :
    ∃ b, localExtent F m = .ok b := by
  unfold localExtent
  dsimp only
  by_cases h1 : m.border = 0
  · rw [if_pos h1]; exact ⟨_, rfl⟩
  · rw [if_neg h1]
    rcases hl with hl | hl
    · rw [if_neg (by rw [hl]; exact polar_ne), if_pos hl]; exact ⟨_, rfl⟩
    · rw [if_pos hl]; exact ⟨_, rfl⟩


theorem convertExtents_ok {m : Module K} (ht : Known m.momsCoordinateType) (hl : Known m.layout.coordinateType)
    (hu : ¬ Unsupported m.momsCoordinateType m.layout.coordinateType) :
    ∃ a b c, convertExtents F m = ({ m with localModuleExtent := a, moduleExtent := b, planeExtent := c }, .ok ()) := by
  obtain ⟨a, ha⟩ := localExtent_ok F (m := m) hl
  obtain ⟨b, hb⟩ := globalExtent_ok F ht hl hu a
  obtain ⟨c, hc⟩ := globalExtent_ok F ht hl hu m.layout.planeExtent
  refine ⟨a, b, c, ?_⟩
  have e1 : globalExtent F { m with localModuleExtent := a } a = .ok b := hb
  have e2 : globalExtent F { m with localModuleExtent := a, moduleExtent := b } m.layout.planeExtent = .ok c := hc
  unfold convertExtents
  simp only [ha, e1, e2]

theorem convertExtents_unsupported {m : Module K} (hu : Unsupported m.momsCoordinateType m.layout.coordinateType) :
    ∃ a, convertExtents F m = ({ m with localModuleExtent := a }, .throw .notImplemented) := by
  obtain ⟨a, ha⟩ := localExtent_ok F (m := m) (Or.inl hu.2)
  refine ⟨a, ?_⟩
  have e1 : globalExtent F { m with localModuleExtent := a } a = .throw .notImplemented := by
    unfold globalExtent
    dsimp only
    rw [if_pos hu.1, if_neg (show ¬ m.layout.coordinateType = POLAR by rw [hu.2]; exact polar_ne), if_pos hu.2]
  unfold convertExtents
  simp only [ha, e1]

end Gear.TpcModule.Any
