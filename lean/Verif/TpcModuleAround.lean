/-
Lemmas for C87: the angles in the extent of a polar module that is moved off the centre, put together.
-/
import Verif.TpcModuleAngles

set_option autoImplicit false
set_option linter.unusedSectionVars false

namespace Gear.TpcModule

open Disk Real

namespace Spec

/-- The directions in which the points of a set are seen from the origin. -/
def directions (s : Set (ℝ × ℝ)) : Set ℝ := {φ | ∃ r > 0, plane POLAR (r, φ) ∈ s}

/-- A set is seen from the origin exactly in the directions from `lo` to `hi`; full turns do not count. -/
def AngularRange (s : Set (ℝ × ℝ)) (lo hi : ℝ) : Prop :=
  lo ≤ hi ∧ hi ≤ lo + 2 * π ∧
    ∀ φ, φ ∈ directions s ↔ ∃ k : ℤ, lo ≤ φ + k * (2 * π) ∧ φ + k * (2 * π) ≤ hi

/-- The line from the origin to the point `q` touches the circle around `apex` through `q`. -/
def Grazes (apex q : ℝ × ℝ) : Prop := (q.1 - apex.1) * q.1 + (q.2 - apex.2) * q.2 = 0

end Spec

open Spec

variable {d r δ β ψ σ c : ℝ} {e : Ext ℝ} {g0 g1 g2 g3 : ℝ × ℝ} {m : Module ℝ}

/-! ### The global origin inside of the sector -/

/-- Some disk around the global origin belongs to the sector. -/
def Inside (d ψ : ℝ) (e : Ext ℝ) : Prop :=
  ∃ ε > 0, ∀ s β, 0 < s → s < ε → ∃ r θ, InE e r θ ∧ r * cos (θ - ψ) - d = s * cos β ∧ r * sin (θ - ψ) = s * sin β

theorem Inside.see (h : Inside d ψ e) (β : ℝ) : ∃ r θ, InE e r θ ∧ See d r (θ - ψ) β := by
  obtain ⟨ε, h0, h⟩ := h
  obtain ⟨r, θ, a, b, c⟩ := h (ε / 2) β (by linarith) (by linarith)
  exact ⟨r, θ, a, ε / 2, by linarith, b, c⟩

theorem sq_of_see {s : ℝ} (b : r * cos δ - d = s * cos β) (c : r * sin δ = s * sin β) :
    r ^ 2 = d ^ 2 + 2 * d * s * cos β + s ^ 2 := by
  have b' : r * cos δ = d + s * cos β := by linarith
  have h1 := sin_sq_add_cos_sq δ
  have h2 := sin_sq_add_cos_sq β
  have : r ^ 2 = (r * cos δ) ^ 2 + (r * sin δ) ^ 2 := by linear_combination -r ^ 2 * h1
  rw [this, b', c]
  linear_combination s ^ 2 * h2

theorem Inside.lt_outer (h : Inside d ψ e) (S : Shape d e) : d < e.e1 := by
  obtain ⟨d0, h0, h01, h23, h2p⟩ := S
  obtain ⟨ε, he, h⟩ := h
  obtain ⟨r, θ, ⟨a0, a1, -, -⟩, b, c⟩ := h (ε / 2) 0 (by linarith) (by linarith)
  have := sq_of_see b c
  rw [cos_zero] at this
  have hr : r ^ 2 = (d + ε / 2) ^ 2 := by rw [this]; ring
  have hr0 : 0 ≤ r := h0.trans a0
  nlinarith

theorem Inside.inner_lt (h : Inside d ψ e) (S : Shape d e) : e.e0 < d := by
  obtain ⟨d0, h0, h01, h23, h2p⟩ := S
  obtain ⟨ε, he, h⟩ := h
  have hm : 0 < min (ε / 2) (d / 2) := lt_min (by linarith) (by linarith)
  obtain ⟨r, θ, ⟨a0, a1, -, -⟩, b, c⟩ := h (min (ε / 2) (d / 2)) π hm (lt_of_le_of_lt (min_le_left _ _) (by linarith))
  have := sq_of_see b c
  rw [cos_pi] at this
  have hs : min (ε / 2) (d / 2) ≤ d / 2 := min_le_right _ _
  set s := min (ε / 2) (d / 2)
  have hr : r ^ 2 = (d - s) ^ 2 := by rw [this]; ring
  have hr0 : 0 ≤ r := h0.trans a0
  nlinarith

/-- Points of the sector a little to both sides of the direction of the global origin. -/
theorem Inside.near (h : Inside d ψ e) (d0 : 0 < d) (h0 : 0 ≤ e.e0) {η0 : ℝ} (hη : 0 < η0) :
    ∃ η, 0 < η ∧ η ≤ η0 ∧ η < π / 2 ∧ (∃ θ, ∃ k : ℤ, e.e2 ≤ θ ∧ θ ≤ e.e3 ∧ θ = ψ + η + k * (2 * π)) ∧
      ∃ θ, ∃ k : ℤ, e.e2 ≤ θ ∧ θ ≤ e.e3 ∧ θ = ψ - η + k * (2 * π) := by
  obtain ⟨ε, he, h⟩ := h
  have hp := pi_pos
  have hq : 0 < ε / 2 / d := div_pos (by linarith) d0
  set η := min η0 (arctan (ε / 2 / d)) with hdef
  have e0 : 0 < η := lt_min hη (by rw [← arctan_zero]; exact arctan_strictMono hq)
  have e1 : η < π / 2 := lt_of_le_of_lt (min_le_right _ _) (arctan_lt_pi_div_two _)
  have e2 : tan η ≤ ε / 2 / d := by
    rw [← tan_arctan (ε / 2 / d)]
    rcases eq_or_lt_of_le (min_le_right η0 (arctan (ε / 2 / d))) with h | h
    · rw [hdef, h]
    · exact (tan_lt_tan_of_lt_of_lt_pi_div_two (by linarith) (arctan_lt_pi_div_two _) h).le
  have e3 : 0 < tan η := tan_pos_of_pos_of_lt_pi_div_two e0 e1
  have e4 : 0 < d * tan η := mul_pos d0 e3
  have e5 : d * tan η < ε := by
    have := mul_le_mul_of_nonneg_left e2 d0.le
    have e : d * (ε / 2 / d) = ε / 2 := by field_simp
    linarith
  have hc : 0 < cos η := cos_pos_of_mem_Ioo ⟨by linarith, e1⟩
  have ht : tan η * cos η = sin η := by rw [tan_eq_sin_div_cos]; field_simp
  have key : ∀ x, (x = η ∨ x = -η) → ∃ θ, ∃ k : ℤ, e.e2 ≤ θ ∧ θ ≤ e.e3 ∧ θ = ψ + x + k * (2 * π) := by
    intro x hx
    have hx1 : cos x = cos η := by rcases hx with rfl | rfl <;> simp
    obtain ⟨β, hβ1, hβ2⟩ : ∃ β, cos β = 0 ∧ d * tan η * sin β * cos η = d * sin x := by
      rcases hx with rfl | rfl
      · exact ⟨π / 2, cos_pi_div_two, by rw [sin_pi_div_two]; linear_combination d * ht⟩
      · exact ⟨-(π / 2), by rw [cos_neg, cos_pi_div_two], by
          rw [sin_neg, sin_pi_div_two, sin_neg]; linear_combination -d * ht⟩
    obtain ⟨r, θ, ⟨a0, a1, a2, a3⟩, b, c⟩ := h (d * tan η) β e4 e5
    rw [hβ1, mul_zero] at b
    have s1 : See 0 r (θ - ψ) x := by
      refine ⟨d / cos η, div_pos d0 hc, ?_, ?_⟩
      · rw [hx1]; field_simp; linarith
      · rw [c, div_mul_eq_mul_div, eq_div_iff hc.ne']; exact hβ2
    have hr : 0 < r := by
      rcases eq_or_lt_of_le (h0.trans a0) with hr | hr
      · rw [← hr] at b; simp at b; linarith
      · exact hr
    have s2 : See 0 r (θ - ψ) (θ - ψ) := ⟨r, hr, by ring, rfl⟩
    obtain ⟨k, hk⟩ := see_unique s1 s2
    exact ⟨θ, k, a2, a3, by linarith⟩
  refine ⟨η, e0, min_le_left _ _, e1, key η (Or.inl rfl), ?_⟩
  obtain ⟨θ, k, q1, q2, q3⟩ := key (-η) (Or.inr rfl)
  exact ⟨θ, k, q1, q2, by linarith⟩

/-- The angles if the global origin is inside of the sector. -/
theorem inside_framed (S : Shape d e) (h : Inside d ψ e) (hσ : σ = 1 ∨ σ = -1) :
    (e.e3 - e.e2 < π → Framed d ψ σ c e (polarPhiA realTrig m e (d, ψ) g0 g1 g2 g3)) ∧
      (π ≤ e.e3 - e.e2 → Framed d ψ σ c e (polarPhiB realTrig m e (d, ψ) g0 g1 g2 g3)) := by
  have hp := pi_pos
  have hin := h.inner_lt S
  have hF : Framed d ψ σ c e (0, 2 * π) := framed_full h.see hσ
  obtain ⟨d0, h0, h01, h23, h2p⟩ := S
  obtain ⟨p0, p1, i, hi⟩ := wrapInto_spec e.e2 ψ
  constructor
  · intro hw
    obtain ⟨η, e0, -, e1, ⟨θ1, k1, a1, b1, c1⟩, θ2, k2, a2, b2, c2⟩ := h.near d0 h0 one_pos
    -- both neighbours are in the same turn
    have hk : k1 = k2 := by
      have : ((k1 - k2 : ℤ) : ℝ) * (2 * π) < 2 * π ∧ -(2 * π) < ((k1 - k2 : ℤ) : ℝ) * (2 * π) := by
        push_cast
        constructor <;> nlinarith
      have q1 : ((k1 - k2 : ℤ) : ℝ) < 1 := by nlinarith [this.1]
      have q2 : (-1 : ℝ) < ((k1 - k2 : ℤ) : ℝ) := by nlinarith [this.2]
      have q1' : k1 - k2 < 1 := by exact_mod_cast q1
      have q2' : -1 < k1 - k2 := by exact_mod_cast q2
      omega
    rw [← hk] at c2
    have ee : wrapInto π e.e2 ψ = (ψ + k1 * (2 * π)) + (i - k1 : ℤ) * (2 * π) := by rw [hi]; push_cast; ring
    have hne : wrapInto π e.e2 ψ ≠ e.e2 + 2 * π := by
      intro hh
      rw [hh] at ee
      have e' : e.e2 = (ψ + k1 * (2 * π)) + (i - k1 - 1 : ℤ) * (2 * π) := by push_cast at ee ⊢; linarith
      have := turn_unique (lo := e.e2) e' le_rfl (by linarith) (by linarith) (by linarith)
      rw [this] at e'
      push_cast at e'
      linarith
    have := turn_unique (lo := e.e2) ee p0 (lt_of_le_of_ne p1 hne) (by linarith) (by linarith)
    rw [this] at ee
    push_cast at ee
    have hlt : wrapInto π e.e2 ψ < e.e3 := by linarith
    unfold polarPhiA phiGlobalOrigin
    dsimp only
    rw [realTrig_pi, if_pos hlt, if_neg (not_le.2 hin)]
    exact hF
  · intro hw
    have hle : wrapInto π e.e2 ψ ≤ e.e3 := by
      by_contra hgt
      push Not at hgt
      obtain ⟨η, e0, e1, e2, ⟨θ1, k1, a1, b1, c1⟩, θ2, k2, a2, b2, c2⟩ :=
        h.near d0 h0 (η0 := (wrapInto π e.e2 ψ - e.e3) / 2) (by linarith)
      -- the angle before it is not in the sector
      have ee : θ2 = (wrapInto π e.e2 ψ - η) + (k2 - i : ℤ) * (2 * π) := by rw [hi, c2]; push_cast; ring
      have := turn_unique (lo := e.e2) ee a2 (by linarith) (by linarith) (by linarith)
      rw [this] at ee
      push_cast at ee
      linarith
    unfold polarPhiB phiGlobalOrigin
    dsimp only
    rw [realTrig_pi, if_neg (not_lt.2 hle), if_neg (not_le.2 hin)]
    exact hF

/-! ### Every direction between the two angles -/

/-- If the global origin is not in the sector, every direction between the two angles is that of a point of the
sector. -/
theorem framed_between {p : ℝ × ℝ} (F : Framed d ψ σ c e p) (hσ : σ = 1 ∨ σ = -1)
    (hap : ∀ r θ, InE e r θ → Apart d r (θ - ψ)) {Φ : ℝ} (l : p.1 ≤ Φ) (u : Φ ≤ p.2) : InSight d ψ σ c e Φ := by
  have hp := pi_pos
  obtain ⟨hle, hall, ⟨hlt, i1, i2⟩ | ⟨-, h⟩⟩ := F
  swap
  · exact h Φ
  set M := (p.1 + p.2) / 2 with hM
  let z : ℝ × ℝ → ℂ := fun q => ⟨q.1 * cos (q.2 - ψ) - d, q.1 * sin (q.2 - ψ)⟩
  let w : ℂ := ⟨cos (σ * (M - c)), -sin (σ * (M - c))⟩
  let s : Set (ℝ × ℝ) := Set.Icc e.e0 e.e1 ×ˢ Set.Icc e.e2 e.e3
  have mem : ∀ {r θ}, InE e r θ → ((r, θ) : ℝ × ℝ) ∈ s := fun h => ⟨⟨h.1, h.2.1⟩, h.2.2⟩
  have mem' : ∀ {q}, q ∈ s → InE e q.1 q.2 := fun h => ⟨h.1.1, h.1.2, h.2⟩
  -- the angle of a point as seen from the middle of the range
  have val : ∀ {r θ x}, See d r (θ - ψ) (σ * (x - c)) →
      ∃ t : ℝ, 0 < t ∧ z (r, θ) * w = t * (Complex.cos ((σ * (x - M) : ℝ) : ℂ) +
        Complex.sin ((σ * (x - M) : ℝ) : ℂ) * Complex.I) := by
    rintro r θ x ⟨t, t0, t1, t2⟩
    refine ⟨t, t0, ?_⟩
    have hx : σ * (x - M) = σ * (x - c) - σ * (M - c) := by ring
    rw [hx, ← Complex.ofReal_cos, ← Complex.ofReal_sin, cos_sub, sin_sub]
    apply Complex.ext
    · simp only [z, w, Complex.mul_re, Complex.add_re, Complex.ofReal_re, Complex.ofReal_im, Complex.I_re, Complex.I_im]
      simp only [Complex.mul_im, Complex.add_im, Complex.ofReal_re, Complex.ofReal_im, Complex.I_re, Complex.I_im]
      rw [t1, t2]
      ring
    · simp only [z, w, Complex.mul_im, Complex.mul_re, Complex.add_im, Complex.add_re, Complex.ofReal_re,
        Complex.ofReal_im, Complex.I_re, Complex.I_im]
      rw [t1, t2]
      ring
  have harg : ∀ {r θ x}, See d r (θ - ψ) (σ * (x - c)) → p.1 ≤ x → x ≤ p.2 →
      Complex.arg (z (r, θ) * w) = σ * (x - M) := by
    intro r θ x hs l u
    obtain ⟨t, t0, ht⟩ := val hs
    rw [ht]
    refine Complex.arg_mul_cos_add_sin_mul_I t0 ?_
    rcases hσ with hσ | hσ <;> rw [hσ] <;> constructor <;> linarith
  have hslit : ∀ q ∈ s, z q * w ∈ Complex.slitPlane := by
    intro q hq
    obtain ⟨x, x1, x2, x3⟩ := hall q.1 q.2 (mem' hq) (hap _ _ (mem' hq))
    rw [Complex.mem_slitPlane_iff_arg]
    constructor
    · rw [show z q = z (q.1, q.2) from rfl, harg x3 x1 x2]
      intro hh
      rcases hσ with hσ | hσ <;> rw [hσ] at hh <;> linarith
    · obtain ⟨t, t0, ht⟩ := val x3
      rw [show z q = z (q.1, q.2) from rfl, ht]
      intro hh
      have := congrArg Complex.normSq hh
      rw [← Complex.ofReal_cos, ← Complex.ofReal_sin] at this
      rw [Complex.normSq_mul, Complex.normSq_zero] at this
      have e1 : Complex.normSq ((cos (σ * (x - M)) : ℝ) + (sin (σ * (x - M)) : ℝ) * Complex.I) = 1 := by
        rw [Complex.normSq_add_mul_I, cos_sq_add_sin_sq]
      rw [e1, mul_one, Complex.normSq_ofReal] at this
      nlinarith
  have hz : Continuous fun q => z q * w := by
    have : z = fun q : ℝ × ℝ => ((q.1 * cos (q.2 - ψ) - d : ℝ) : ℂ) + ((q.1 * sin (q.2 - ψ) : ℝ) : ℂ) * Complex.I := by
      funext q
      have h1 := Complex.re_add_im (z q)
      exact h1.symm
    rw [this]
    fun_prop
  have hcont : ContinuousOn (fun q => Complex.arg (z q * w)) s := by
    intro q hq
    exact ContinuousAt.comp_continuousWithinAt (f := fun q => z q * w) (Complex.continuousAt_arg (hslit q hq))
      hz.continuousWithinAt
  have hconn : IsPreconnected s := (isPreconnected_Icc).prod isPreconnected_Icc
  obtain ⟨r1, θ1, m1, s1⟩ := i1
  obtain ⟨r2, θ2, m2, s2⟩ := i2
  have v1 := harg s1 le_rfl hle
  have v2 := harg s2 hle le_rfl
  have hit : σ * (Φ - M) ∈ (fun q => Complex.arg (z q * w)) '' s := by
    rcases hσ with hσ | hσ
    · refine hconn.intermediate_value (mem m1) (mem m2) hcont ⟨?_, ?_⟩
      · show Complex.arg (z (r1, θ1) * w) ≤ _
        rw [v1, hσ]; linarith
      · show _ ≤ Complex.arg (z (r2, θ2) * w)
        rw [v2, hσ]; linarith
    · refine hconn.intermediate_value (mem m2) (mem m1) hcont ⟨?_, ?_⟩
      · show Complex.arg (z (r2, θ2) * w) ≤ _
        rw [v2, hσ]; linarith
      · show _ ≤ Complex.arg (z (r1, θ1) * w)
        rw [v1, hσ]; linarith
  obtain ⟨⟨r, θ⟩, hq, hv⟩ := hit
  have hv : Complex.arg (z (r, θ) * w) = σ * (Φ - M) := hv
  obtain ⟨x, x1, x2, x3⟩ := hall r θ (mem' hq) (hap _ _ (mem' hq))
  rw [harg x3 x1 x2] at hv
  have : x = Φ := by rcases hσ with hσ | hσ <;> rw [hσ] at hv <;> linarith
  rw [this] at x3
  exact ⟨r, θ, mem' hq, x3⟩

/-! ### The module -/

theorem localToGlobal_range (ht : m.momsCoordinateType = POLAR) (hl : Known m.layout.coordinateType)
    (hf : m.localIsGlobal ≠ true) (hx : m.offsetCartesian.1 ≠ 0) {x y : ℝ} {p : ℝ × ℝ} (h : localToGlobal realTrig m x y = .ok p) :
    0 ≤ p.2 ∧ p.2 < 2 * π := by
  unfold localToGlobal at h
  rw [if_neg hf] at h
  have key : ∀ X Y, toGlobal realTrig m X Y = .ok p → 0 ≤ p.2 ∧ p.2 < 2 * π := by
    intro X Y hh
    obtain ⟨q, q1, -, q3⟩ := toGlobal_place (m := m) (Or.inr ht) X Y
    rw [q1] at hh
    obtain rfl := Res.ok.inj hh
    exact (q3 ht).2
  rcases hl with hl | hl
  · rw [if_neg (by rw [hl]; exact polar_ne), if_pos hl] at h
    exact key _ _ h
  · rw [if_pos hl] at h
    dsimp only at h
    rw [if_neg (fun hh => hx hh.2.1)] at h
    exact key _ _ h

/-- The direction the local x axis of the sight takes globally. -/
noncomputable def axis (angle z ψ : ℝ) : ℝ := if z > 0 then angle + ψ else π - (angle + ψ)

/-- A point of the module and where it is seen from the global origin. -/
theorem place_see {angle z ρ φ θ : ℝ} {off : ℝ × ℝ} (ho : place angle off z (d * cos ψ, d * sin ψ) = (0, 0))
    (hσ : σ = if z > 0 then 1 else -1) :
    place angle off z (r * cos θ, r * sin θ) = (ρ * cos φ, ρ * sin φ) ↔
      (r * cos (θ - ψ) - d = ρ * cos (σ * (φ - axis angle z ψ)) ∧
        r * sin (θ - ψ) = ρ * sin (σ * (φ - axis angle z ψ))) := by
  rw [place_angle] at ho ⊢
  rw [Prod.mk.injEq] at ho ⊢
  obtain ⟨o1, o2⟩ := ho
  have o1' : off.1 = -(d * cos (ψ + angle)) := by split_ifs at o1 <;> linarith
  have o2' : off.2 = -(d * sin (ψ + angle)) := by linarith
  rw [o1', o2']
  have hθ : θ - ψ = (θ + angle) - (ψ + angle) := by ring
  rw [hθ, cos_sub, sin_sub]
  have S := sin_sq_add_cos_sq (ψ + angle)
  set C := cos (ψ + angle)
  set D := sin (ψ + angle)
  set A := cos (θ + angle)
  set B := sin (θ + angle)
  by_cases hz : z > 0
  · rw [if_neg (not_le.2 hz), hσ, if_pos hz]
    unfold axis
    rw [if_pos hz]
    have hφ : (1 : ℝ) * (φ - (angle + ψ)) = φ - (ψ + angle) := by ring
    rw [hφ, cos_sub, sin_sub]
    constructor
    · rintro ⟨a, b⟩
      constructor
      · linear_combination C * a + D * b + d * S
      · linear_combination -D * a + C * b
    · rintro ⟨a, b⟩
      constructor
      · linear_combination C * a - D * b + (ρ * cos φ - r * A) * S
      · linear_combination D * a + C * b + (ρ * sin φ - r * B) * S
  · rw [if_pos (not_lt.1 hz), hσ, if_neg hz]
    unfold axis
    rw [if_neg hz]
    have hφ : (-1 : ℝ) * (φ - (π - (angle + ψ))) = π - (φ + (ψ + angle)) := by ring
    rw [hφ, cos_pi_sub, sin_pi_sub, cos_add φ, sin_add φ]
    constructor
    · rintro ⟨a, b⟩
      constructor
      · linear_combination -C * a + D * b + d * S
      · linear_combination D * a + C * b
    · rintro ⟨a, b⟩
      constructor
      · linear_combination -C * a + D * b + (ρ * cos φ + r * A) * S
      · linear_combination D * a + C * b + (ρ * sin φ - r * B) * S

/-- The local angle of the point where a tangent touches the outer circle. -/
theorem touch_local {e1 : ℝ} (d0 : 0 < d) (he1 : 0 < e1) (hd1 : e1 ≤ d) {t : ℝ × ℝ} (t3 : 0 ≤ t.1) {sg x : ℝ} {j : ℤ}
    (hsg : sg = 1 ∨ sg = -1) (hx : x = sg * tangent d e1 + j * (2 * π))
    (t4 : t.1 * cos (t.2 - ψ) - d = d * sin (touch d e1) * cos x ∧
      t.1 * sin (t.2 - ψ) = d * sin (touch d e1) * sin x) :
    ∃ k : ℤ, t.2 = ψ + sg * touch d e1 + k * (2 * π) := by
  have hτ := touch_cos d0 he1.le hd1
  have htt := tangent_touch d e1
  have hct : cos (tangent d e1) = -sin (touch d e1) := by
    rw [htt, add_comm, cos_add_pi_div_two]
  have hst : sin (tangent d e1) = cos (touch d e1) := by
    rw [htt, add_comm, sin_add_pi_div_two]
  rw [hx, cos_add_int_mul_two_pi, sin_add_int_mul_two_pi] at t4
  have S2 := sin_sq_add_cos_sq (touch d e1)
  have u1 : t.1 * cos (t.2 - ψ) = e1 * cos (sg * touch d e1) := by
    have := t4.1
    rcases hsg with rfl | rfl
    · rw [one_mul, hct] at this
      rw [one_mul]
      linear_combination this - d * S2 + cos (touch d e1) * hτ
    · rw [neg_one_mul, cos_neg, hct] at this
      rw [neg_one_mul, cos_neg]
      linear_combination this - d * S2 + cos (touch d e1) * hτ
  have u2 : t.1 * sin (t.2 - ψ) = e1 * sin (sg * touch d e1) := by
    have := t4.2
    rcases hsg with rfl | rfl
    · rw [one_mul, hst] at this
      rw [one_mul]
      linear_combination this + sin (touch d e1) * hτ
    · rw [neg_one_mul, sin_neg, hst] at this
      rw [neg_one_mul, sin_neg]
      linear_combination this - sin (touch d e1) * hτ
  have S3 := sin_sq_add_cos_sq (sg * touch d e1)
  have S4 := sin_sq_add_cos_sq (t.2 - ψ)
  have v : t.1 ^ 2 = e1 ^ 2 := by
    have : t.1 ^ 2 = (t.1 * cos (t.2 - ψ)) ^ 2 + (t.1 * sin (t.2 - ψ)) ^ 2 := by linear_combination -t.1 ^ 2 * S4
    rw [this, u1, u2]
    linear_combination e1 ^ 2 * S3
  have v1 : t.1 = e1 := (sq_eq_sq₀ t3 he1.le).1 v
  have w1 : See 0 e1 (t.2 - ψ) (sg * touch d e1) :=
    ⟨e1, he1, by rw [← v1] at u1 ⊢; linarith, by rw [← v1] at u2 ⊢; exact u2⟩
  have w2 : See 0 e1 (t.2 - ψ) (t.2 - ψ) := ⟨e1, he1, by ring, rfl⟩
  obtain ⟨k, hk⟩ := see_unique w1 w2
  exact ⟨k, by linarith⟩

/-- For polar coordinates inside and outside and a module moved from the origin, the angles are right: if the
global origin is not on the border of the region and no outer corner is just touched by the line from the global
origin. -/
theorem polar_angles {m : Module ℝ} (h : Inv m) (ht : m.momsCoordinateType = POLAR)
    (hl : m.layout.coordinateType = POLAR) (hx : m.offsetCartesian.1 ≠ 0) {e g : Ext ℝ} (h0 : 0 ≤ e.e0)
    (h1 : e.e0 ≤ e.e1) (he1 : 0 < e.e1) (h2 : e.e2 ≤ e.e3) (h3 : e.e3 ≤ e.e2 + 2 * π)
    (hfr : (0, 0) ∉ frontier (place m.angle (plane m.momsCoordinateType m.offset) m.zPosition '' region POLAR e))
    (hgr : ∀ th, th = e.e2 ∨ th = e.e3 →
      ¬ Grazes (place m.angle (plane m.momsCoordinateType m.offset) m.zPosition (0, 0))
        (place m.angle (plane m.momsCoordinateType m.offset) m.zPosition (plane POLAR (e.e1, th))))
    (hg : globalExtent realTrig m e = .ok g) :
    AngularRange (place m.angle (plane m.momsCoordinateType m.offset) m.zPosition '' region POLAR e) g.e2 g.e3 := by
  have hp := pi_pos
  have hoff := h.off (Or.inr ht)
  have hne : m.offset.1 ≠ 0 := by
    intro hh
    rw [hoff, ht, plane_polar, hh, zero_mul] at hx
    exact hx rfl
  have hfl : m.localIsGlobal ≠ true := by
    intro hh
    have := (h.flag (Or.inr ht) hh).2.2
    rw [this] at hne
    exact hne rfl
  have hw : ¬ WrongComponent m := fun hh => hx hh.2.2.1
  set P := place m.angle (plane m.momsCoordinateType m.offset) m.zPosition with hP
  have gtl : ∀ c : ℝ × ℝ, 0 ≤ c.1 → ∃ p, globalToLocal realTrig m c.1 c.2 = .ok p ∧
      P (p.1 * cos p.2, p.1 * sin p.2) = (c.1 * cos c.2, c.1 * sin c.2) ∧ 0 ≤ p.1 := by
    intro c hc
    obtain ⟨p, p1, p2, p3⟩ := globalToLocal_place h (Or.inr ht) (Or.inr hl) (fun hh => absurd hh hfl) hw c
    refine ⟨p, p1, ?_, p3 hl (fun _ => hc)⟩
    rw [hl, plane_polar] at p2
    rw [hP, p2, ht, plane_polar]
  obtain ⟨o, o1, o2, o4⟩ := gtl (0, 0) le_rfl
  rw [zero_mul, zero_mul] at o2
  obtain ⟨d, ψ⟩ := o
  dsimp only at o1 o2 o4
  set σ : ℝ := if m.zPosition > 0 then 1 else -1 with hσ
  have hσ' : σ = 1 ∨ σ = -1 := by rw [hσ]; split_ifs <;> simp
  set c := axis m.angle m.zPosition ψ with hc
  have see : ∀ r θ ρ φ, P (r * cos θ, r * sin θ) = (ρ * cos φ, ρ * sin φ) ↔
      (r * cos (θ - ψ) - d = ρ * cos (σ * (φ - c)) ∧ r * sin (θ - ψ) = ρ * sin (σ * (φ - c))) :=
    fun r θ ρ φ => place_see o2 hσ
  -- the global origin is not the local one
  have d0 : 0 < d := by
    rcases eq_or_lt_of_le o4 with hd | hd
    · rw [← hd, hP, place_angle, Prod.mk.injEq] at o2
      exfalso
      rw [hoff] at hx
      apply hx
      have := o2.1
      split_ifs at this <;> linarith
    · exact hd
  have S : Shape d e := ⟨d0, h0, h1, h2, h3⟩
  have ltg : ∀ r θ, 0 ≤ r → ∃ p, localToGlobal realTrig m r θ = .ok p ∧ 0 ≤ p.1 ∧ 0 ≤ p.2 ∧ p.2 < 2 * π ∧
      P (r * cos θ, r * sin θ) = (p.1 * cos p.2, p.1 * sin p.2) := by
    intro r θ hr
    obtain ⟨p, p1, p2, p3⟩ := localToGlobal_place h (Or.inr ht) (Or.inr hl) (fun hh => absurd hh hfl) (r, θ)
    refine ⟨p, p1, p3 ht (fun _ => hr), (localToGlobal_range ht (Or.inr hl) hfl hx p1).1,
      (localToGlobal_range ht (Or.inr hl) hfl hx p1).2, ?_⟩
    rw [hl, ht, plane_polar, plane_polar] at p2
    rw [hP, ht]
    exact p2.symm
  obtain ⟨g0, a0, b0, c0, l0, s0⟩ := ltg e.e0 e.e2 h0
  obtain ⟨g1, a1, b1, c1, l1, s1⟩ := ltg e.e0 e.e3 h0
  obtain ⟨g2, a2, b2, c2, l2, s2⟩ := ltg e.e1 e.e2 he1.le
  obtain ⟨g3, a3, b3, c3, l3, s3⟩ := ltg e.e1 e.e3 he1.le
  have hits : ∀ {r θ} {p : ℝ × ℝ}, Apart d r (θ - ψ) → 0 ≤ p.1 → 0 ≤ p.2 → p.2 < 2 * π →
      P (r * cos θ, r * sin θ) = (p.1 * cos p.2, p.1 * sin p.2) → Hits d ψ σ c p r θ := by
    intro r θ p ha q0 q1 q2 q3
    have := (see _ _ _ _).1 q3
    refine ⟨q1, q2, p.1, ?_, this⟩
    rcases eq_or_lt_of_le q0 with hh | hh
    · exfalso
      rw [← hh, zero_mul, zero_mul] at this
      exact ha this
    · exact hh
  -- corners that are not just touched
  have graze : ∀ th, th = e.e2 ∨ th = e.e3 → d * cos (th - ψ) ≠ e.e1 := by
    intro th hth hh
    refine hgr th hth ?_
    unfold Grazes
    have e1 := place_angle m.angle (plane m.momsCoordinateType m.offset) m.zPosition d ψ
    rw [← hP, o2, Prod.mk.injEq] at e1
    obtain ⟨f1, f2⟩ := e1
    have k0 : P (0, 0) = (if m.zPosition ≤ 0 then -(plane m.momsCoordinateType m.offset).1
        else (plane m.momsCoordinateType m.offset).1, (plane m.momsCoordinateType m.offset).2) := by
      rw [hP]; unfold place; simp
    have k1 : P (plane POLAR (e.e1, th)) = _ :=
      place_angle m.angle (plane m.momsCoordinateType m.offset) m.zPosition e.e1 th
    have t : th - ψ = (th + m.angle) - (ψ + m.angle) := by ring
    rw [t, cos_sub] at hh
    have S1 := sin_sq_add_cos_sq (th + m.angle)
    rw [k0, plane_polar] 
    rw [plane_polar] at k1
    dsimp only at k1 ⊢
    rw [k1]
    dsimp only
    have f1' : (plane m.momsCoordinateType m.offset).1 = -(d * cos (ψ + m.angle)) := by
      split_ifs at f1 <;> linarith
    have f2' : (plane m.momsCoordinateType m.offset).2 = -(d * sin (ψ + m.angle)) := by linarith
    rw [f1', f2']
    split_ifs
    · linear_combination -e.e1 * hh + e.e1 ^ 2 * S1
    · linear_combination -e.e1 * hh + e.e1 ^ 2 * S1
  -- the directions of the placed region
  have hdir : ∀ φ, φ ∈ directions (P '' region POLAR e) ↔ InSight d ψ σ c e φ := by
    intro φ
    constructor
    · rintro ⟨ρ, hρ, q, ⟨⟨r, θ⟩, q0, q1, q2, q3, rfl⟩, hq⟩
      rw [plane_polar, plane_polar] at hq
      exact ⟨r, θ, ⟨q0, q1, q2, q3⟩, ρ, hρ, (see _ _ _ _).1 hq⟩
    · rintro ⟨r, θ, ⟨q0, q1, q2, q3⟩, ρ, hρ, hq⟩
      refine ⟨ρ, hρ, _, ⟨(r, θ), q0, q1, q2, q3, rfl⟩, ?_⟩
      rw [plane_polar, plane_polar]
      exact (see _ _ _ _).2 hq
  -- the angles that are computed
  obtain ⟨phi, hphi⟩ := polarPhi_ok (m := m) (Or.inr ht) (Or.inr hl) e (d, ψ) g0 g1 g2 g3
  have hgp : g.e2 = phi.1 ∧ g.e3 = phi.2 := by
    unfold globalExtent at hg
    rw [if_pos ht, if_pos hl] at hg
    unfold globalExtentPolarPolar at hg
    rw [if_neg hne] at hg
    simp only [o1, a0, a1, a2, a3, hphi, Res.bind_ok, Res.pure_eq] at hg
    obtain rfl := Res.ok.inj hg
    exact ⟨rfl, rfl⟩
  rw [hgp.1, hgp.2]
  have fin : Framed d ψ σ c e phi → (∀ Φ, phi.1 ≤ Φ → Φ ≤ phi.2 → InSight d ψ σ c e Φ) →
      AngularRange (P '' region POLAR e) phi.1 phi.2 := by
    intro F hb
    have turn : ∀ Φ (k : ℤ), InSight d ψ σ c e Φ → InSight d ψ σ c e (Φ + k * (2 * π)) := by
      rintro Φ k ⟨r, θ, hm, hs⟩
      rcases hσ' with hs1 | hs1
      · have := hs.turn 0 k
        push_cast at this
        rw [zero_mul, add_zero] at this
        refine ⟨r, θ, hm, ?_⟩
        rw [hs1] at this ⊢
        have ee : (1 : ℝ) * (Φ + k * (2 * π) - c) = 1 * (Φ - c) + k * (2 * π) := by ring
        rwa [ee]
      · have := hs.turn 0 (-k)
        push_cast at this
        rw [zero_mul, add_zero] at this
        refine ⟨r, θ, hm, ?_⟩
        rw [hs1] at this ⊢
        have ee : (-1 : ℝ) * (Φ + k * (2 * π) - c) = -1 * (Φ - c) + -k * (2 * π) := by ring
        rwa [ee]
    refine ⟨F.le, ?_, ?_⟩
    · rcases F.tight with ⟨hh, -⟩ | ⟨hh, -⟩ <;> linarith
    · intro φ
      rw [hdir]
      constructor
      · rintro ⟨r, θ, hm, hs⟩
        obtain ⟨Φ, q1, q2, q3⟩ := F.all r θ hm hs.apart
        obtain ⟨k, hk⟩ := see_unique hs q3
        rcases hσ' with hs1 | hs1
        · refine ⟨k, ?_⟩
          rw [hs1] at hk
          have : Φ = φ + k * (2 * π) := by linarith
          rw [← this]
          exact ⟨q1, q2⟩
        · refine ⟨-k, ?_⟩
          rw [hs1] at hk
          have : Φ = φ + (-k : ℤ) * (2 * π) := by push_cast; linarith
          rw [← this]
          exact ⟨q1, q2⟩
      · rintro ⟨k, q1, q2⟩
        have := turn _ (-k) (hb _ q1 q2)
        have ee : φ + k * (2 * π) + (-k : ℤ) * (2 * π) = φ := by push_cast; ring
        rwa [ee] at this
  by_cases hmem : (0, 0) ∈ P '' region POLAR e
  · -- the global origin is inside
    have hint : (0, 0) ∈ interior (P '' region POLAR e) := by
      by_contra hh
      exact hfr ⟨subset_closure hmem, hh⟩
    have hI : Inside d ψ e := by
      rw [mem_interior_iff_mem_nhds, Metric.mem_nhds_iff] at hint
      obtain ⟨ε, he, hb⟩ := hint
      refine ⟨ε, he, ?_⟩
      intro s β q0 q1
      have hmem : (s * cos (c + σ * β), s * sin (c + σ * β)) ∈ P '' region POLAR e := by
        apply hb
        rw [Metric.mem_ball, Prod.dist_eq, Real.dist_eq, Real.dist_eq, sub_zero, sub_zero, abs_mul, abs_mul,
          abs_of_pos q0]
        refine max_lt ?_ ?_
        · have := abs_cos_le_one (c + σ * β); nlinarith
        · have := abs_sin_le_one (c + σ * β); nlinarith
      obtain ⟨q, ⟨⟨r, θ⟩, k0, k1, k2, k3, rfl⟩, hq⟩ := hmem
      rw [plane_polar] at hq
      have := (see _ _ _ _).1 hq
      have ee : σ * (c + σ * β - c) = β := by rcases hσ' with hs1 | hs1 <;> rw [hs1] <;> ring
      rw [ee] at this
      exact ⟨r, θ, ⟨k0, k1, k2, k3⟩, this⟩
    have hd1 := hI.lt_outer S
    obtain ⟨fA, fB⟩ := inside_framed (c := c) (m := m) (g0 := g0) (g1 := g1) (g2 := g2) (g3 := g3) S hI hσ'
    unfold polarPhi at hphi
    rw [if_neg (not_le.2 hd1), realTrig_pi] at hphi
    have hb : ∀ Φ, phi.1 ≤ Φ → Φ ≤ phi.2 → InSight d ψ σ c e Φ := fun Φ _ _ => hI.see _
    by_cases hw' : e.e3 - e.e2 < π
    · rw [if_pos hw'] at hphi
      obtain rfl := Res.ok.inj hphi
      exact fin (fA hw') hb
    · rw [if_neg hw'] at hphi
      obtain rfl := Res.ok.inj hphi
      exact fin (fB (not_lt.1 hw')) hb
  · have hap : ∀ r θ, InE e r θ → Apart d r (θ - ψ) := by
      rintro r θ ⟨q0, q1, q2, q3⟩ hh
      apply hmem
      refine ⟨_, ⟨(r, θ), q0, q1, q2, q3, rfl⟩, ?_⟩
      have := (see r θ 0 0).2 (by rw [zero_mul, zero_mul]; exact hh)
      rw [zero_mul, zero_mul] at this
      rw [plane_polar]
      exact this
    have C : Corners d ψ σ c e g0 g1 g2 g3 :=
      ⟨hits (hap _ _ ⟨le_rfl, h1, le_rfl, h2⟩) b0 c0 l0 s0, hits (hap _ _ ⟨le_rfl, h1, h2, le_rfl⟩) b1 c1 l1 s1,
        hits (hap _ _ ⟨h1, le_rfl, le_rfl, h2⟩) b2 c2 l2 s2, hits (hap _ _ ⟨h1, le_rfl, h2, le_rfl⟩) b3 c3 l3 s3⟩
    suffices F : Framed d ψ σ c e phi from fin F (fun Φ => framed_between F hσ' hap)
    unfold polarPhi at hphi
    rw [realTrig_pi] at hphi
    by_cases hd1 : d < e.e1
    · rw [if_neg (not_le.2 hd1)] at hphi
      by_cases hw' : e.e3 - e.e2 < π
      · rw [if_pos hw'] at hphi
        obtain rfl := Res.ok.inj hphi
        exact polarPhiA_framed S hd1 hw' C hσ hap
      · rw [if_neg hw'] at hphi
        obtain rfl := Res.ok.inj hphi
        exact polarPhiB_framed S hd1 (not_lt.1 hw') C hσ hap
    · have hd1 := not_lt.1 hd1
      rw [if_pos (show (d, ψ).1 ≥ e.e1 from hd1)] at hphi
      obtain ⟨og, ga, gb, gc, gd, gs⟩ := ltg 0 0 le_rfl
      rw [ga, Res.bind_ok] at hphi
      -- where the local origin is seen
      have k1 := (see _ _ _ _).1 gs
      rw [zero_mul, zero_mul] at k1
      have hog1 : og.1 = d := by
        have := sin_sq_add_cos_sq (σ * (og.2 - c))
        have h2 : og.1 ^ 2 = d ^ 2 := by
          linear_combination -og.1 ^ 2 * this - (0 - d + og.1 * cos (σ * (og.2 - c))) * k1.1
            - (og.1 * sin (σ * (og.2 - c))) * k1.2
        exact (sq_eq_sq₀ gb d0.le).1 h2
      have hsπ : See d 0 0 π := ⟨d, d0, by rw [cos_pi]; ring, by rw [sin_pi]; ring⟩
      have hso : See d 0 0 (σ * (og.2 - c)) :=
        ⟨og.1, by rw [hog1]; exact d0, by rw [zero_mul]; exact k1.1, by rw [zero_mul]; exact k1.2⟩
      obtain ⟨j, hj⟩ := see_unique hsπ hso
      obtain ⟨j0, hj0⟩ : ∃ j0 : ℤ, og.2 = c + σ * π + j0 * (2 * π) := by
        rcases hσ' with hs1 | hs1
        · exact ⟨j, by rw [hs1] at hj ⊢; linarith⟩
        · exact ⟨-j, by rw [hs1] at hj ⊢; push_cast; linarith⟩
      -- the points where the tangents touch
      have hτ := touch_cos d0 he1.le hd1
      obtain ⟨τ0, τ1⟩ := touch_range (d := d) d0 he1.le
      have hsτ : 0 ≤ sin (touch d e.e1) := sin_nonneg_of_nonneg_of_le_pi τ0 (by linarith)
      have hrT : √(og.1 * og.1 - e.e1 * e.e1) = d * sin (touch d e.e1) := by
        rw [hog1]
        have : d * d - e.e1 * e.e1 = (d * sin (touch d e.e1)) ^ 2 := by
          have := sin_sq_add_cos_sq (touch d e.e1)
          linear_combination -d ^ 2 * this + (d * cos (touch d e.e1) + e.e1) * hτ
        rw [this, Real.sqrt_sq (mul_nonneg d0.le hsτ)]
      have touchAt : ∀ (x : ℝ) (sg : ℝ) (j : ℤ), (sg = 1 ∨ sg = -1) →
          σ * (x - c) = sg * tangent d e.e1 + j * (2 * π) →
          ∃ t, globalToLocal realTrig m (d * sin (touch d e.e1)) x = .ok t ∧
            ∃ k : ℤ, t.2 = ψ + sg * touch d e.e1 + k * (2 * π) := by
        intro x sg j hsg hx
        obtain ⟨t, t1, t2, t3⟩ := gtl (d * sin (touch d e.e1), x) (mul_nonneg d0.le hsτ)
        refine ⟨t, t1, ?_⟩
        exact touch_local d0 he1 hd1 t3 hsg hx ((see _ _ _ _).1 t2)
      have hasin : arcsin (e.e1 / d) = π - tangent d e.e1 := by unfold tangent; ring
      unfold polarPhiOutside at hphi
      have eF : realTrig.asin = arcsin := rfl
      have eS : realTrig.sqrt = Real.sqrt := rfl
      dsimp only at hphi
      rw [realTrig_pi, eF, eS, hrT] at hphi
      by_cases hz : m.zPosition > 0
      · have hs1 : σ = 1 := by rw [hσ, if_pos hz]
        obtain ⟨t, t1, j1, t2⟩ := touchAt (og.2 - arcsin (e.e1 / d)) 1 j0 (Or.inl rfl)
          (by rw [hasin, hj0, hs1]; ring)
        obtain ⟨u, u1, j2, u2⟩ := touchAt (og.2 + arcsin (e.e1 / d)) (-1) (j0 + 1) (Or.inr rfl)
          (by rw [hasin, hj0, hs1]; push_cast; ring)
        rw [one_mul] at t2
        rw [neg_one_mul] at u2
        simp only [if_pos hz, t1, u1, Res.bind_ok, Res.pure_eq, decide_eq_true_eq] at hphi
        obtain rfl := Res.ok.inj hphi
        exact (framed_outside S he1 hd1 C hap (graze _ (Or.inl rfl)) (graze _ (Or.inr rfl)) hj0 t2 u2).1 hs1
      · have hs1 : σ = -1 := by rw [hσ, if_neg hz]
        obtain ⟨t, t1, j1, t2⟩ := touchAt (og.2 + arcsin (e.e1 / d)) 1 (-j0) (Or.inl rfl)
          (by rw [hasin, hj0, hs1]; push_cast; ring)
        obtain ⟨u, u1, j2, u2⟩ := touchAt (og.2 - arcsin (e.e1 / d)) (-1) (-j0 + 1) (Or.inr rfl)
          (by rw [hasin, hj0, hs1]; push_cast; ring)
        rw [one_mul] at t2
        rw [neg_one_mul] at u2
        simp only [if_neg hz, t1, u1, Res.bind_ok, Res.pure_eq, decide_eq_true_eq] at hphi
        obtain rfl := Res.ok.inj hphi
        exact (framed_outside S he1 hd1 C hap (graze _ (Or.inl rfl)) (graze _ (Or.inr rfl)) hj0 t2 u2).2 hs1

end Gear.TpcModule
