import Verif.Model.Array
/-!
# Lemmas on array operations
-/
namespace CM.HS
open CM.FFT Finset

lemma validIndex_length {s x : List ℕ} (h : validIndex s x) : x.length = s.length := h.length_eq

lemma flatIndex_lt : ∀ {s x : List ℕ}, validIndex s x → flatIndex s x < s.prod
  | [], [], _ => by simp [flatIndex]
  | n :: ns, i :: is, h => by
    cases h with
    | cons hi h =>
      have := flatIndex_lt h
      simp only [flatIndex, List.prod_cons]
      calc i * ns.prod + flatIndex ns is < i * ns.prod + ns.prod := by omega
        _ = (i + 1) * ns.prod := by ring
        _ ≤ n * ns.prod := Nat.mul_le_mul_right _ hi

lemma unflat_flat : ∀ {s x : List ℕ}, validIndex s x → unflatIndex s (flatIndex s x) = x
  | [], [], _ => by simp [unflatIndex]
  | n :: ns, i :: is, h => by
    cases h with
    | cons hi h =>
      have h1 := flatIndex_lt h
      have h2 := unflat_flat h
      have hp : 0 < ns.prod := by omega
      simp only [flatIndex, unflatIndex]
      rw [Nat.mul_comm, Nat.mul_add_div hp, Nat.mul_add_mod, Nat.div_eq_of_lt h1, Nat.mod_eq_of_lt h1, h2]
      simp

lemma validIndex_unflat : ∀ {s : List ℕ} {k : ℕ}, k < s.prod → validIndex s (unflatIndex s k)
  | [], k, _ => List.Forall₂.nil
  | n :: ns, k, h => by
    have hp : 0 < ns.prod := by
      rcases Nat.eq_zero_or_pos ns.prod with h0 | h0
      · simp [h0] at h
      · exact h0
    refine List.Forall₂.cons ?_ (validIndex_unflat (Nat.mod_lt _ hp))
    rw [Nat.div_lt_iff_lt_mul hp]; simpa using h

lemma flat_unflat : ∀ {s : List ℕ} {k : ℕ}, k < s.prod → flatIndex s (unflatIndex s k) = k
  | [], k, h => by simp [flatIndex] at *; omega
  | n :: ns, k, h => by
    have hp : 0 < ns.prod := by
      rcases Nat.eq_zero_or_pos ns.prod with h0 | h0
      · simp [h0] at h
      · exact h0
    simp only [unflatIndex, flatIndex]
    rw [flat_unflat (Nat.mod_lt _ hp), Nat.mul_comm, Nat.div_add_mod]

lemma flat_flatIndex {α : Type} {a : NdArray α} {s x : List ℕ} (hs : a.shape = s) (h : validIndex s x) :
    a.flat (flatIndex s x) = a.get x := by
  subst hs; rw [NdArray.flat, unflat_flat h]

/-- Reshaping keeps the entries in C order. -/
lemma reshape_flat {α : Type} {a b : NdArray α} {s : List ℕ} (h : reshape a s = .ok b) {k : ℕ} (hk : k < a.size) :
    b.flat k = a.flat k := by
  unfold reshape at h
  split at h
  · rename_i hs
    cases h
    show a.flat (flatIndex s (unflatIndex s k)) = _
    rw [flat_unflat (by rw [← hs]; exact hk)]
  · cases h

lemma reshape_ok {α : Type} (a : NdArray α) {s : List ℕ} (h : a.size = s.prod) :
    ∃ b, reshape a s = .ok b ∧ b.shape = s ∧ ∀ k, k < s.prod → b.flat k = a.flat k := by
  have hr : reshape a s = .ok ⟨s, fun x => a.flat (flatIndex s x)⟩ := by rw [reshape, if_pos h]
  exact ⟨_, hr, rfl, fun k hk => reshape_flat hr (by rw [h]; exact hk)⟩

lemma ravel_flat {α : Type} (a : NdArray α) (k : ℕ) : (ravel a).flat k = a.flat k := by
  simp [ravel, NdArray.flat, unflatIndex]

lemma sum_range_mul' {M : Type} [AddCommMonoid M] (n m : ℕ) (f : ℕ → M) :
    ∑ k ∈ range (n * m), f k = ∑ i ∈ range n, ∑ j ∈ range m, f (i * m + j) := by
  induction n with
  | zero => simp
  | succ n ih => rw [Nat.succ_mul, sum_range_add, ih, sum_range_succ]

/-- A sum over an array is the sum over its entries in C order. -/
lemma sumShape_flat {M : Type} [AddCommMonoid M] : ∀ (s : List ℕ) (f : List ℕ → M),
    sumShape s f = ∑ k ∈ range s.prod, f (unflatIndex s k)
  | [], f => by simp [sumShape, unflatIndex]
  | n :: ns, f => by
    simp only [sumShape, List.prod_cons, sum_range_mul']
    refine sum_congr rfl fun i _ => ?_
    rw [sumShape_flat ns]
    refine sum_congr rfl fun j hj => ?_
    have hj := mem_range.mp hj
    simp only [unflatIndex]
    rw [Nat.mul_comm, Nat.mul_add_div (by omega), Nat.mul_add_mod, Nat.div_eq_of_lt hj, Nat.mod_eq_of_lt hj]
    simp

lemma _root_.CM.FFT.NdArray.sum_flat (a : NdArray ℝ) : a.sum = ∑ k ∈ range a.size, a.flat k := sumShape_flat _ _

lemma sumShape_congr {M : Type} [AddCommMonoid M] : ∀ {s : List ℕ} {f g : List ℕ → M}, (∀ x, validIndex s x → f x = g x) →
    sumShape s f = sumShape s g := by
  intro s f g h
  rw [sumShape_flat, sumShape_flat]
  exact sum_congr rfl fun k hk => h _ (validIndex_unflat (mem_range.mp hk))

lemma bcastRev_self : ∀ s : List ℕ, bcastRev s s = some s
  | [] => rfl
  | n :: ns => by simp [bcastRev, bcastRev_self ns]

lemma zipWith_bcast_self : ∀ {s x : List ℕ}, validIndex s x →
    List.zipWith (fun n i => if n = 1 then 0 else i) s x = x
  | [], [], _ => rfl
  | n :: ns, i :: is, h => by
    cases h with
    | cons hi h =>
      rw [List.zipWith_cons_cons, zipWith_bcast_self h]
      congr 1
      split <;> omega

lemma bcastIndex_self {s x : List ℕ} (h : validIndex s x) : bcastIndex s x = x := by
  rw [bcastIndex, validIndex_length h, Nat.sub_self, List.drop_zero, zipWith_bcast_self h]

/-- Elementwise operations on arrays of equal shape. -/
lemma binop_same {α β γ : Type} (op : α → β → γ) {a : NdArray α} {b : NdArray β} {s : List ℕ} (ha : a.shape = s)
    (hb : b.shape = s) : ∃ c, binop op a b = .ok c ∧ c.shape = s ∧
      ∀ x, validIndex s x → c.get x = op (a.get x) (b.get x) := by
  refine ⟨⟨s, fun x => op (a.get (bcastIndex a.shape x)) (b.get (bcastIndex b.shape x))⟩, ?_, rfl, fun x hx => ?_⟩
  · rw [binop, ha, hb, bcastRev_self]; simp
  · simp only [ha, hb, bcastIndex_self hx]

lemma valid2 {nx ny : ℕ} {x : List ℕ} : validIndex [nx, ny] x ↔ ∃ i j, x = [i, j] ∧ i < nx ∧ j < ny := by
  constructor
  · intro h
    cases h with
    | cons h1 h =>
      cases h with
      | cons h2 h =>
        cases h
        exact ⟨_, _, rfl, h1, h2⟩
  · rintro ⟨i, j, rfl, hi, hj⟩
    exact .cons hi (.cons hj .nil)

lemma zipWith_min_self : ∀ s : List ℕ, List.zipWith min s s = s
  | [] => rfl
  | n :: ns => by simp

lemma sliceTo_self {α : Type} {a : NdArray α} {s : List ℕ} (h : a.shape = s) : sliceTo s a = .ok ⟨s, a.get⟩ := by
  rw [sliceTo, if_neg (by rw [h]; simp), h]
  simp

/-- Slicing an array that is at least as large in every direction. -/
lemma sliceTo_le {α : Type} {a : NdArray α} {s : List ℕ} (h : List.Forall₂ (· ≤ ·) s a.shape) :
    sliceTo s a = .ok ⟨s, a.get⟩ := by
  have hl := h.length_eq
  rw [sliceTo, if_neg (by omega)]
  have : List.zipWith min a.shape s = s := by
    clear hl
    generalize a.shape = t at h
    induction h with
    | nil => rfl
    | cons h _ ih => simp [ih, h]
  simp [this, hl]

end CM.HS
