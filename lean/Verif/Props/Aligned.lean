import Verif.Spec.Aligned
import Mathlib.Tactic.Linarith
import Mathlib.Tactic.FieldSimp
import Mathlib.Tactic.Ring

/-!
# Property C156 (aligned_eigen_types.hpp): three-dimensional vectors with a hidden fourth coefficient
-/
namespace Verif.Aligned
open Matrix

theorem bind_ok {ε α β : Type} (a : α) (f : α → Except ε β) : (Except.ok a >>= f) = f a := rfl
theorem bind_error {ε α β : Type} (e : ε) (f : α → Except ε β) : (Except.error e >>= f) = Except.error e := rfl
theorem pure_ok {ε α : Type} (a : α) : (pure a : Except ε α) = Except.ok a := rfl

theorem assertOne_ok (asserts : Bool) {a : Vec} (h : a.w = 1) : assertOne asserts a = .ok () := by
  simp [assertOne, h]

theorem assertOne_bad {a : Vec} (h : a.w ≠ 1) : assertOne true a = .error .aborted := by
  simp [assertOne, h]

theorem assertOne_off (a : Vec) : assertOne false a = .ok () := by
  simp [assertOne]

theorem point_dot (a b : Vec) : point a ⬝ᵥ point b = a.x * b.x + a.y * b.y + a.z * b.z := by
  simp [point, add_assoc]

theorem dot_self_nonneg (a : Vec) : 0 ≤ a.x * a.x + a.y * a.y + a.z * a.z := by
  nlinarith [mul_self_nonneg a.x, mul_self_nonneg a.y, mul_self_nonneg a.z]

theorem point_eq_zero (a : Vec) : point a = 0 ↔ a.x * a.x + a.y * a.y + a.z * a.z = 0 := by
  constructor
  · intro h
    have hx : a.x = 0 := by simpa [point] using congrFun h 0
    have hy : a.y = 0 := by simpa [point] using congrFun h 1
    have hz : a.z = 0 := by simpa [point] using congrFun h 2
    rw [hx, hy, hz]; ring
  · intro h
    have hx : a.x = 0 := by
      apply mul_self_eq_zero.1
      nlinarith [mul_self_nonneg a.x, mul_self_nonneg a.y, mul_self_nonneg a.z]
    have hy : a.y = 0 := by
      apply mul_self_eq_zero.1
      nlinarith [mul_self_nonneg a.x, mul_self_nonneg a.y, mul_self_nonneg a.z]
    have hz : a.z = 0 := by
      apply mul_self_eq_zero.1
      nlinarith [mul_self_nonneg a.x, mul_self_nonneg a.y, mul_self_nonneg a.z]
    ext i
    fin_cases i <;> simp [point, hx, hy, hz]

/-- **C156.** While the hidden coefficient is one, the dot product, the sum and the norms are those of the vector the
user sees, and no assertion fails. -/
theorem C156_measures (asserts : Bool) (a b : Vec) (ha : a.w = 1) (hb : b.w = 1) :
    dot asserts a b = .ok (point a ⬝ᵥ point b) ∧
    sum asserts a = .ok (point a 0 + point a 1 + point a 2) ∧
    squaredNorm asserts a = .ok (point a ⬝ᵥ point a) ∧
    norm asserts a = .ok (length (point a)) := by
  have hs : squaredNorm asserts a = .ok (point a ⬝ᵥ point a) := by
    unfold squaredNorm
    rw [assertOne_ok asserts ha, bind_ok, pure_ok, point_dot, ha]
    congr 1; ring
  refine ⟨?_, ?_, hs, ?_⟩
  · unfold dot
    rw [assertOne_ok asserts ha, assertOne_ok asserts hb, bind_ok, bind_ok, pure_ok, point_dot, ha, hb]
    congr 1; ring
  · unfold sum
    rw [assertOne_ok asserts ha, bind_ok, pure_ok, ha]
    congr 1; simp [point]
  · unfold norm
    rw [hs, bind_ok, if_neg, pure_ok]
    · rfl
    · rw [point_dot]
      exact not_lt.2 (dot_self_nonneg a)

/-- **C156.** The value of every expression made of constructors, `+`, `-`, `*`, `/`, `cross` and `normalized` is the
value of the same expression on ordinary vectors, with the hidden coefficient one. It fails only by dividing by zero,
never by an assertion. -/
theorem C156_expressions (asserts : Bool) (e : Expr) :
    (∀ p, ideal e = some p → ∃ v, eval asserts e = .ok v ∧ point v = p ∧ v.w = 1) ∧
    (ideal e = none → eval asserts e = .error .notFinite) := by
  induction e with
  | xyz x y z =>
    refine ⟨fun p h => ⟨_, rfl, ?_, rfl⟩, fun h => by simp [ideal] at h⟩
    have h' : ![x, y, z] = p := by simpa [ideal] using h
    rw [← h']; rfl
  | default =>
    refine ⟨fun p h => ⟨_, rfl, ?_, rfl⟩, fun h => by simp [ideal] at h⟩
    have h' : 0 = p := by simpa [ideal] using h
    rw [← h']
    ext i; fin_cases i <;> simp [point, zero]
  | add a b iha ihb =>
    cases ha : ideal a with
    | none =>
      refine ⟨fun p h => by simp [ideal, ha] at h, fun _ => ?_⟩
      simp only [eval]; rw [iha.2 ha]; rfl
    | some p =>
      obtain ⟨u, hu, hup, huw⟩ := iha.1 p ha
      cases hb : ideal b with
      | none =>
        refine ⟨fun p h => by simp [ideal, ha, hb] at h, fun _ => ?_⟩
        simp only [eval]; rw [hu, ihb.2 hb]; rfl
      | some q =>
        obtain ⟨v, hv, hvp, hvw⟩ := ihb.1 q hb
        refine ⟨fun r h => ⟨add u v, ?_, ?_, rfl⟩, fun h => by simp [ideal, ha, hb] at h⟩
        · simp only [eval]; rw [hu, hv]; rfl
        · have h' : p + q = r := by simpa [ideal, ha, hb] using h
          rw [← h', ← hup, ← hvp]
          ext i; fin_cases i <;> simp [point, add, assign4, coeffAdd]
  | sub a b iha ihb =>
    cases ha : ideal a with
    | none =>
      refine ⟨fun p h => by simp [ideal, ha] at h, fun _ => ?_⟩
      simp only [eval]; rw [iha.2 ha]; rfl
    | some p =>
      obtain ⟨u, hu, hup, huw⟩ := iha.1 p ha
      cases hb : ideal b with
      | none =>
        refine ⟨fun p h => by simp [ideal, ha, hb] at h, fun _ => ?_⟩
        simp only [eval]; rw [hu, ihb.2 hb]; rfl
      | some q =>
        obtain ⟨v, hv, hvp, hvw⟩ := ihb.1 q hb
        refine ⟨fun r h => ⟨sub u v, ?_, ?_, rfl⟩, fun h => by simp [ideal, ha, hb] at h⟩
        · simp only [eval]; rw [hu, hv]; rfl
        · have h' : p - q = r := by simpa [ideal, ha, hb] using h
          rw [← h', ← hup, ← hvp]
          ext i; fin_cases i <;> simp [point, sub, assign4, coeffSub]
  | mul a s iha =>
    cases ha : ideal a with
    | none =>
      refine ⟨fun p h => by simp [ideal, ha] at h, fun _ => ?_⟩
      simp only [eval]; rw [iha.2 ha]; rfl
    | some p =>
      obtain ⟨u, hu, hup, huw⟩ := iha.1 p ha
      refine ⟨fun r h => ⟨mul u s, ?_, ?_, rfl⟩, fun h => by simp [ideal, ha] at h⟩
      · simp only [eval]; rw [hu]; rfl
      · have h' : s • p = r := by simpa [ideal, ha] using h
        rw [← h', ← hup]
        ext i; fin_cases i <;> simp [point, mul, assign4, coeffMul, mul_comm]
  | div a s iha =>
    cases ha : ideal a with
    | none =>
      refine ⟨fun p h => by simp [ideal, ha] at h, fun _ => ?_⟩
      simp only [eval]; rw [iha.2 ha]; rfl
    | some p =>
      obtain ⟨u, hu, hup, huw⟩ := iha.1 p ha
      by_cases hs : s = 0
      · refine ⟨fun r h => by simp [ideal, ha, hs] at h, fun _ => ?_⟩
        simp only [eval]; rw [hu, bind_ok]; unfold div coeffDiv; rw [if_pos hs]; rfl
      · refine ⟨fun r h => ⟨assign4 ⟨u.x / s, u.y / s, u.z / s, u.w / s⟩, ?_, ?_, rfl⟩,
          fun h => by simp [ideal, ha, hs] at h⟩
        · simp only [eval]; rw [hu, bind_ok]; unfold div coeffDiv; rw [if_neg hs]; rfl
        · have h' : s⁻¹ • p = r := by simpa [ideal, ha, hs] using h
          rw [← h', ← hup]
          ext i; fin_cases i <;> simp [point, assign4, div_eq_inv_mul]
  | cross a b iha ihb =>
    cases ha : ideal a with
    | none =>
      refine ⟨fun p h => by simp [ideal, ha] at h, fun _ => ?_⟩
      simp only [eval]; rw [iha.2 ha]; rfl
    | some p =>
      obtain ⟨u, hu, hup, huw⟩ := iha.1 p ha
      cases hb : ideal b with
      | none =>
        refine ⟨fun p h => by simp [ideal, ha, hb] at h, fun _ => ?_⟩
        simp only [eval]; rw [hu, ihb.2 hb]; rfl
      | some q =>
        obtain ⟨v, hv, hvp, hvw⟩ := ihb.1 q hb
        refine ⟨fun r h => ⟨cross u v, ?_, ?_, rfl⟩, fun h => by simp [ideal, ha, hb] at h⟩
        · simp only [eval]; rw [hu, hv]; rfl
        · have h' : crossProduct p q = r := by simpa [ideal, ha, hb] using h
          rw [← h', ← hup, ← hvp, cross_apply]
          ext i; fin_cases i <;> simp [point, cross, assign4]
  | normalized a iha =>
    cases ha : ideal a with
    | none =>
      refine ⟨fun p h => by simp [ideal, ha] at h, fun _ => ?_⟩
      simp only [eval]; rw [iha.2 ha]; rfl
    | some p =>
      obtain ⟨u, hu, hup, huw⟩ := iha.1 p ha
      have hn := (C156_measures asserts u u huw huw).2.2.2
      have hz : length (point u) = 0 ↔ p = 0 := by
        rw [← hup, point_eq_zero, ← point_dot]
        unfold length
        rw [Real.sqrt_eq_zero]
        rw [point_dot]; exact dot_self_nonneg u
      by_cases hp : p = 0
      · refine ⟨fun r h => by simp [ideal, ha, hp] at h, fun _ => ?_⟩
        simp only [eval]; rw [hu, bind_ok]; unfold normalized
        rw [hn, bind_ok]; unfold coeffDiv; rw [if_pos (hz.2 hp)]; rfl
      · have hl : ¬ length (point u) = 0 := fun h => hp (hz.1 h)
        refine ⟨fun r h => ⟨assign4 ⟨u.x / length (point u), u.y / length (point u), u.z / length (point u),
          u.w / length (point u)⟩, ?_, ?_, rfl⟩, fun h => by simp [ideal, ha, hp] at h⟩
        · simp only [eval]; rw [hu, bind_ok]; unfold normalized
          rw [hn, bind_ok]; unfold coeffDiv; rw [if_neg hl]; rfl
        · have h' : (length p)⁻¹ • p = r := by simpa [ideal, ha, hp] using h
          rw [← h', ← hup]
          ext i; fin_cases i <;> simp [point, assign4, div_eq_inv_mul]

/-- **C156.** Operations in place keep the vector the user sees right, whatever was done before. -/
theorem C156_in_place_point (ops : List Op) (a : Vec) :
    (∀ p, idealRun (point a) ops = some p → ∃ v, run a ops = .ok v ∧ point v = p) ∧
    (idealRun (point a) ops = none → run a ops = .error .notFinite) := by
  induction ops generalizing a with
  | nil => exact ⟨fun p h => ⟨a, rfl, by simpa [idealRun] using h⟩, fun h => by simp [idealRun] at h⟩
  | cons op rest ih =>
    cases op with
    | add b =>
      have e : point (addAssign a b) = point a + point b := by
        ext i; fin_cases i <;> simp [point, addAssign, coeffAdd]
      have := ih (addAssign a b)
      rw [e] at this
      exact this
    | sub b =>
      have e : point (subAssign a b) = point a - point b := by
        ext i; fin_cases i <;> simp [point, subAssign, coeffSub]
      have := ih (subAssign a b)
      rw [e] at this
      exact this
    | mul s =>
      have e : point (mulAssign a s) = s • point a := by
        ext i; fin_cases i <;> simp [point, mulAssign, coeffMul, mul_comm]
      have := ih (mulAssign a s)
      rw [e] at this
      exact this
    | div s =>
      by_cases hs : s = 0
      · refine ⟨fun p h => by simp [idealRun, hs] at h, fun _ => ?_⟩
        simp only [run, step, divAssign, coeffDiv]; rw [if_pos hs]; rfl
      · have e : point (⟨a.x / s, a.y / s, a.z / s, a.w / s⟩ : Vec) = s⁻¹ • point a := by
          ext i; fin_cases i <;> simp [point, div_eq_inv_mul]
        have := ih ⟨a.x / s, a.y / s, a.z / s, a.w / s⟩
        rw [e] at this
        simp only [run, step, divAssign, coeffDiv, idealRun]
        rw [if_neg hs, if_neg hs]
        exact this

/-- **C156.** What operations in place with ordinary vectors do to the hidden coefficient. -/
theorem C156_hidden (ops : List Op) (hops : ∀ op ∈ ops, ∀ b, op = .add b ∨ op = .sub b → b.w = 1) (a v : Vec)
    (h : run a ops = .ok v) : v.w = hidden a.w ops := by
  induction ops generalizing a with
  | nil => simp only [run, Except.ok.injEq] at h; rw [← h]; rfl
  | cons op rest ih =>
    have hr : ∀ op ∈ rest, ∀ b, op = .add b ∨ op = .sub b → b.w = 1 :=
      fun op ho => hops op (List.mem_cons_of_mem _ ho)
    cases op with
    | add b =>
      have hb := hops (.add b) List.mem_cons_self b (.inl rfl)
      have h1 : run (addAssign a b) rest = .ok v := h
      rw [ih hr _ h1]
      simp [hidden, addAssign, coeffAdd, hb]
    | sub b =>
      have hb := hops (.sub b) List.mem_cons_self b (.inr rfl)
      have h1 : run (subAssign a b) rest = .ok v := h
      rw [ih hr _ h1]
      simp [hidden, subAssign, coeffSub, hb]
    | mul s =>
      have h1 : run (mulAssign a s) rest = .ok v := h
      rw [ih hr _ h1]
      simp [hidden, mulAssign, coeffMul]
    | div s =>
      simp only [run, step, divAssign, coeffDiv] at h
      by_cases hs : s = 0
      · rw [if_pos hs] at h; exact absurd h (by simp [bind_error])
      · rw [if_neg hs, bind_ok] at h
        rw [ih hr _ h]
        rfl

/-- **C156.** The error of the measures of a vector whose hidden coefficient is not one: with assertions the program
ends; without them the sum is off by `w - 1`, the squared norm by `w² - 1` and the dot product with an ordinary vector
by `w - 1`. -/
theorem C156_error (a b : Vec) (hb : b.w = 1) :
    (a.w ≠ 1 → dot true a b = .error .aborted ∧ dot true b a = .error .aborted ∧ sum true a = .error .aborted ∧
      squaredNorm true a = .error .aborted ∧ norm true a = .error .aborted ∧ normalize true a = .error .aborted ∧
      normalized true a = .error .aborted) ∧
    dot false a b = .ok (point a ⬝ᵥ point b + (a.w - 1)) ∧
    dot false b a = .ok (point b ⬝ᵥ point a + (a.w - 1)) ∧
    sum false a = .ok (point a 0 + point a 1 + point a 2 + (a.w - 1)) ∧
    squaredNorm false a = .ok (point a ⬝ᵥ point a + (a.w ^ 2 - 1)) ∧
    (point a ⬝ᵥ point a + (a.w ^ 2 - 1) < 0 → norm false a = .error .notFinite) ∧
    (0 ≤ point a ⬝ᵥ point a + (a.w ^ 2 - 1) →
      norm false a = .ok (Real.sqrt (point a ⬝ᵥ point a + (a.w ^ 2 - 1)))) := by
  have hs : squaredNorm false a = .ok (point a ⬝ᵥ point a + (a.w ^ 2 - 1)) := by
    unfold squaredNorm
    rw [assertOne_off, bind_ok, pure_ok, point_dot]
    congr 1; ring
  refine ⟨?_, ?_, ?_, ?_, hs, ?_, ?_⟩
  · intro ha
    have hsq : squaredNorm true a = .error .aborted := by
      unfold squaredNorm; rw [assertOne_bad ha]; rfl
    have hn : norm true a = .error .aborted := by
      unfold norm; rw [hsq]; rfl
    refine ⟨?_, ?_, ?_, hsq, hn, ?_, ?_⟩
    · unfold dot; rw [assertOne_bad ha]; rfl
    · unfold dot; rw [assertOne_ok true hb, bind_ok, assertOne_bad ha]; rfl
    · unfold sum; rw [assertOne_bad ha]; rfl
    · unfold normalize; rw [hn]; rfl
    · unfold normalized; rw [hn]; rfl
  · unfold dot
    rw [assertOne_off, assertOne_off, bind_ok, bind_ok, pure_ok, point_dot, hb]
    congr 1; ring
  · unfold dot
    rw [assertOne_off, assertOne_off, bind_ok, bind_ok, pure_ok, point_dot, hb]
    congr 1; ring
  · unfold sum
    rw [assertOne_off, bind_ok, pure_ok]
    congr 1; simp [point]; ring
  · intro h
    unfold norm; rw [hs, bind_ok, if_pos h]
  · intro h
    unfold norm; rw [hs, bind_ok, if_neg (not_lt.2 h)]; rfl

/-- **C156.** So `+=` is not `+`: after adding an ordinary vector in place, the squared norm is three too large and the
dot products one too large, or the program ends. -/
theorem C156_add_in_place_wrong (a b c : Vec) (ha : a.w = 1) (hb : b.w = 1) (hc : c.w = 1) :
    squaredNorm true (addAssign a b) = .error .aborted ∧
    squaredNorm false (addAssign a b) = .ok (point (add a b) ⬝ᵥ point (add a b) + 3) ∧
    dot false (addAssign a b) c = .ok (point (add a b) ⬝ᵥ point c + 1) := by
  have hw : (addAssign a b).w = 2 := by simp only [addAssign, coeffAdd, ha, hb]; norm_num
  have hp : point (addAssign a b) = point (add a b) := rfl
  obtain ⟨h1, h2, _, _, h3, _, _⟩ := C156_error (addAssign a b) c hc
  refine ⟨(h1 (by rw [hw]; norm_num)).2.2.2.1, ?_, ?_⟩
  · rw [h3, hw, hp]; norm_num
  · rw [h2, hw, hp]; norm_num

/-- **C156.** And `normalize` is not `normalized`: afterwards the vector the user sees has length one, but, without
assertions, `norm` says one over the length it had before; with them it ends the program, unless that length was one. -/
theorem C156_normalize_wrong (asserts : Bool) (a : Vec) (ha : a.w = 1) (hz : point a ≠ 0) :
    ∃ v, normalize asserts a = .ok v ∧ length (point v) = 1 ∧
      norm false v = .ok (1 / length (point a)) ∧
      (norm true v = .error .aborted ↔ length (point a) ≠ 1) := by
  have hn := (C156_measures asserts a a ha ha).2.2.2
  have hpos : 0 < length (point a) := by
    unfold length
    apply Real.sqrt_pos.2
    rw [point_dot]
    rcases lt_or_eq_of_le (dot_self_nonneg a) with h | h
    · exact h
    · exact absurd ((point_eq_zero a).2 h.symm) hz
  set n := length (point a) with hnd
  have hn0 : n ≠ 0 := ne_of_gt hpos
  have hsq : n * n = a.x * a.x + a.y * a.y + a.z * a.z := by
    rw [hnd, ← point_dot]; unfold length
    apply Real.mul_self_sqrt
    rw [point_dot]; exact dot_self_nonneg a
  have hone : point (⟨a.x / n, a.y / n, a.z / n, a.w / n⟩ : Vec) ⬝ᵥ
      point (⟨a.x / n, a.y / n, a.z / n, a.w / n⟩ : Vec) = 1 := by
    rw [point_dot]
    simp only
    field_simp
    nlinarith [hsq]
  refine ⟨⟨a.x / n, a.y / n, a.z / n, a.w / n⟩, ?_, ?_, ?_, ?_⟩
  · unfold normalize; rw [hn, bind_ok]; unfold coeffDiv; rw [if_neg hn0]
  · unfold length; rw [hone, Real.sqrt_one]
  · obtain ⟨_, _, _, _, _, _, h⟩ := C156_error ⟨a.x / n, a.y / n, a.z / n, a.w / n⟩ a ha
    rw [hone] at h
    have he : (1 : ℝ) + ((a.w / n) ^ 2 - 1) = (1 / n) ^ 2 := by rw [ha]; ring
    simp only at h
    rw [he] at h
    rw [h (sq_nonneg _), Real.sqrt_sq (by positivity)]
  · have hw : a.w / n = 1 ↔ n = 1 := by
      rw [ha, div_eq_one_iff_eq hn0]; exact eq_comm
    constructor
    · intro h hn1
      have h1 := (C156_measures true ⟨a.x / n, a.y / n, a.z / n, a.w / n⟩ a (hw.2 hn1) ha).2.2.2
      rw [h1] at h
      exact absurd h (by simp)
    · intro hn1
      exact ((C156_error ⟨a.x / n, a.y / n, a.z / n, a.w / n⟩ a ha).1 (fun h => hn1 (hw.1 h))).2.2.2.2.1

/-- **C156.** `(a -= b) += c` loses `c`; `(a += b) -= c` does not. -/
theorem C156_chains (a b c : Vec) :
    point (subThenAdd a b c).1 = point a - point b ∧ point (subThenAdd a b c).2 = point a - point b + point c ∧
    point (addThenSub a b c).1 = point a + point b - point c := by
  refine ⟨?_, ?_, ?_⟩ <;> ext i <;>
    fin_cases i <;> simp [point, subThenAdd, addThenSub, subAssign, addAssign, coeffSub, coeffAdd]

/-- **C156.** `isApprox` compares the vectors the user sees: the distance with the tolerance times the smaller of the
lengths. Only the zero vector is approximately zero. -/
theorem C156_approx (a : Vec) (x y z eps : ℝ) (he : 0 ≤ eps) :
    (isApprox a x y z eps = true ↔
      length (point a - ![x, y, z]) ≤ eps * min (length (point a)) (length ![x, y, z])) ∧
    (isApprox a 0 0 0 eps = true ↔ point a = 0) ∧
    isApprox a a.x a.y a.z eps = true := by
  have hd : (point a - ![x, y, z]) ⬝ᵥ (point a - ![x, y, z]) =
      (a.x - x) * (a.x - x) + (a.y - y) * (a.y - y) + (a.z - z) * (a.z - z) := by
    simp [point, add_assoc]
  have hv : (![x, y, z] : Fin 3 → ℝ) ⬝ᵥ ![x, y, z] = x * x + y * y + z * z := by
    simp [add_assoc]
  have hmin : eps * min (length (point a)) (length ![x, y, z]) =
      Real.sqrt (eps * eps * min (a.x * a.x + a.y * a.y + a.z * a.z) (x * x + y * y + z * z)) := by
    unfold length
    rw [point_dot, hv, Real.sqrt_mul (mul_self_nonneg eps), Real.sqrt_mul_self he]
    congr 1
    exact ((Real.sqrt_monotone).map_min).symm
  have hnn : 0 ≤ min (a.x * a.x + a.y * a.y + a.z * a.z) (x * x + y * y + z * z) :=
    le_min (dot_self_nonneg a) (dot_self_nonneg ⟨x, y, z, 1⟩)
  refine ⟨?_, ?_, ?_⟩
  · rw [hmin]
    unfold length isApprox
    rw [hd, decide_eq_true_iff]
    rw [Real.sqrt_le_sqrt_iff (mul_nonneg (mul_self_nonneg eps) hnn)]
  · unfold isApprox
    rw [decide_eq_true_iff, point_eq_zero]
    have : min (a.x * a.x + a.y * a.y + a.z * a.z) ((0 : ℝ) * 0 + 0 * 0 + 0 * 0) = 0 := by
      rw [min_eq_right]
      · ring
      · have := dot_self_nonneg a; linarith
    rw [this]
    constructor
    · intro h; have := dot_self_nonneg a; nlinarith
    · intro h; nlinarith
  · unfold isApprox
    rw [decide_eq_true_iff]
    have h1 := dot_self_nonneg a
    rw [min_self]
    have := mul_nonneg (mul_self_nonneg eps) h1
    nlinarith

/-- `(3, 4, 0)` normalized in place claims to have length 1/5. -/
example : ∃ v, normalize false (ofXyz 3 4 0) = .ok v ∧ norm false v = .ok (1 / 5) := by
  have h5 : length (point (ofXyz 3 4 0)) = 5 := by
    unfold length; rw [point_dot]
    rw [show (ofXyz 3 4 0).x * (ofXyz 3 4 0).x + (ofXyz 3 4 0).y * (ofXyz 3 4 0).y +
      (ofXyz 3 4 0).z * (ofXyz 3 4 0).z = 5 * 5 by simp [ofXyz]; norm_num]
    exact Real.sqrt_mul_self (by norm_num)
  obtain ⟨v, h1, _, h2, _⟩ := C156_normalize_wrong false (ofXyz 3 4 0) rfl
    (fun h => by have := congrFun h 0; simp [point, ofXyz] at this)
  exact ⟨v, h1, by rw [h2, h5]⟩

/-- Adding, then scaling by one half, in place, restores the hidden coefficient. -/
example : hidden 1 [.add (ofXyz 1 2 3), .mul (1 / 2)] = 1 := by
  simp [hidden]; norm_num

example : ideal (.normalized (.cross (.xyz 1 0 0) (.xyz 2 0 0))) = none := by
  simp [ideal, cross_apply]

/-- C156: a vector made of, or assigned from, an expression with three or four coefficients has its first three, and the
hidden one is one whatever the fourth was. -/
theorem C156_assign (x y z : ℝ) (src : Vec) :
    point (assign3 x y z) = ![x, y, z] ∧ (assign3 x y z).w = 1 ∧ point (assign4 src) = point src ∧ (assign4 src).w = 1 :=
  ⟨rfl, rfl, rfl, rfl⟩

end Verif.Aligned
