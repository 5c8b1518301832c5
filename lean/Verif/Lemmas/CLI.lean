import Verif.Spec.CLI
import Verif.Props.Pipeline3
import Std.Data.String.ToNat
/-!
# Lemmas on the command line front-end
-/
set_option linter.unusedSimpArgs false
namespace CM.Cli
open Finset CM.HS CM.FFT CM.System CM.Spec CM.Pipe

variable {nx ny : ℕ} {sx sy : ℝ} {T : Topo}

/-! ## Stable sorting -/

section Sorting
variable {α : Type} (key : α → ℝ)

/-- Insert `x` behind everything that is not larger. -/
noncomputable def insertEnd (x : α) : List α → List α
  | [] => [x]
  | b :: l => if key b ≤ key x then b :: insertEnd x l else x :: b :: l

lemma ordered_insertEnd (a x : α) : ∀ l : List α,
    List.orderedInsert (fun a b => key a ≤ key b) a (insertEnd key x l) = insertEnd key x (List.orderedInsert (fun a b => key a ≤ key b) a l)
  | [] => by
    simp only [insertEnd, List.orderedInsert]
  | b :: l => by
    simp only [insertEnd, List.orderedInsert]
    by_cases h1 : key b ≤ key x <;> by_cases h2 : key a ≤ key b
    · simp [h1, h2, insertEnd, le_trans h2 h1]
    · simp [h1, h2, insertEnd, ordered_insertEnd a x l]
    · by_cases h3 : key a ≤ key x
      · simp [h1, h2, h3, insertEnd]
      · simp [h1, h2, h3, insertEnd]
    · have h3 : ¬ key a ≤ key x := by intro h; push Not at h1 h2; linarith
      simp [h1, h2, h3, insertEnd]

lemma sortedBy_concat (x : α) : ∀ l : List α, sortedBy key (l ++ [x]) = insertEnd key x (sortedBy key l)
  | [] => by simp [sortedBy, insertEnd]
  | a :: l => by
    have ih := sortedBy_concat x l
    unfold sortedBy at ih ⊢
    rw [List.cons_append, List.insertionSort_cons, ih, ordered_insertEnd]
    rfl

lemma sortedBy_of_sorted {l : List α} (h : l.Pairwise fun a b => key a ≤ key b) : sortedBy key l = l :=
  h.insertionSort_eq

lemma sortedBy_idem (l : List α) : sortedBy key (sortedBy key l) = sortedBy key l := sortedBy_of_sorted key (sortedBy_sorted key l)

lemma sortedBy_step (l : List α) (x : α) : sortedBy key (sortedBy key l ++ [x]) = sortedBy key (l ++ [x]) := by
  rw [sortedBy_concat, sortedBy_concat, sortedBy_idem]

lemma map_sortedBy {β : Type} (f : α → β) (key' : β → ℝ) (hf : ∀ a, key' (f a) = key a) (l : List α) :
    (sortedBy key l).map f = sortedBy key' (l.map f) := by
  unfold sortedBy
  exact List.map_insertionSort _ _ f l (by intro a _ b _; simp [hf])

lemma filter_insertEnd (a : ℝ) (x : α) : ∀ l : List α, l.Pairwise (fun a b => key a ≤ key b) →
    (insertEnd key x l).filter (fun r => decide (key r = a)) = (l ++ [x]).filter fun r => decide (key r = a)
  | [], _ => rfl
  | b :: l, h => by
    simp only [insertEnd]
    rw [List.pairwise_cons] at h
    split
    · simp only [List.cons_append, List.filter_cons, filter_insertEnd a x l h.2]
    · next hc =>
      by_cases hx : key x = a
      · have : (b :: l).filter (fun r => decide (key r = a)) = [] := by
          rw [List.filter_eq_nil_iff]
          intro y hy
          push Not at hc
          rcases List.mem_cons.1 hy with rfl | hy
          · simp; linarith [hc.ne']
          · have := h.1 y hy
            simp; intro e; linarith
        rw [List.filter_append, this]
        simp [List.filter_cons, hx]
        rw [List.filter_cons] at this
        simpa using this
      · rw [List.filter_append]
        simp [List.filter_cons, hx]

lemma filter_sortedBy (l : List α) (a : ℝ) :
    (sortedBy key l).filter (fun r => decide (key r = a)) = l.filter fun r => decide (key r = a) := by
  induction l using List.reverseRecOn with
  | nil => rfl
  | append_singleton l x ih =>
    rw [sortedBy_concat, filter_insertEnd key a x _ (sortedBy_sorted key l), List.filter_append, ih, List.filter_append]

end Sorting

/-! ## The history -/

/-- The row of a record. -/
def tuple (r : Record) : ℝ × ℝ × ℝ × ℝ × Bool := (r.displacement, r.gap, r.pressure, r.area, r.converged)

lemma rowsOf_histOf (l : List Record) : rowsOf (histOf l) = l.map tuple := by
  induction l with
  | nil => rfl
  | cons a l ih => simpa [rowsOf, histOf, tuple] using ih

lemma columnsOf_tuple (l : List Record) : columnsOf (l.map tuple) = histOf l := by
  simp [columnsOf, histOf, tuple]

/-- Rows sorted by area. -/
noncomputable def byArea (l : List Record) : List Record := sortedBy Record.area l

lemma columns_sorted (l : List Record) : columnsOf (sortedBy (·.2.2.2.1) (rowsOf (histOf l))) = histOf (byArea l) := by
  rw [rowsOf_histOf, ← map_sortedBy Record.area tuple (·.2.2.2.1) (by intro a; rfl), columnsOf_tuple]
  rfl

lemma nextOffset_sorted (h : NdArray ℝ) (l : List Record) :
    cliOffset h (some (histOf (byArea l))) = nextOffset h (some (histOf l)) := by
  have hz : ∀ l : List Record, (histOf l).disp.zip (histOf l).area = l.map fun r => (r.displacement, r.area) := by
    intro l; simp [histOf, List.zip_map']
  have hs : sortedBy Prod.snd ((histOf l).disp.zip (histOf l).area) = (byArea l).map fun r => (r.displacement, r.area) := by
    rw [hz]
    exact (map_sortedBy Record.area (fun r : Record => (r.displacement, r.area)) Prod.snd (by intro a; rfl) l).symm
  have hlen : (histOf (byArea l)).disp.length = (histOf l).disp.length := by
    simp [histOf, byArea, (sortedBy_perm Record.area l).length_eq]
  have h1 : ((byArea l).map fun r => (r.displacement, r.area)).map Prod.fst = (histOf (byArea l)).disp := by
    simp [histOf]
  have h2 : ((byArea l).map fun r => (r.displacement, r.area)).map Prod.snd = (histOf (byArea l)).area := by
    simp [histOf]
  unfold cliOffset nextOffset
  dsimp only
  rw [hlen, hs, h1, h2]

lemma cliOffset_holds {h : NdArray ℝ} {o : Option History} {l : List Record} (ho : Holds o l) :
    cliOffset h o = cliOffset h (some (histOf l)) := by
  cases o with
  | none =>
    have : histOf l = History.empty := ho.symm
    rw [this]
    simp [cliOffset, History.empty]
  | some x =>
    have : x = histOf l := ho
    rw [this]

/-! ## The system -/

lemma cli_substrate_ready (hT : ValidTopo T nx ny sx sy) {A : CliArgs} (hA : ValidCli A) {sub : Substrate} (h : cliSubstrate T A = .ok sub) :
    sub.topo = [nx, ny] ∧ sub.hs.physicalSizes = [sx, sy] ∧ sub.checkFlag = false := by
  have hsz : T.physicalSizes = [sx, sy] := hT.sizes
  unfold cliSubstrate at h
  split at h
  · cases hc : construct ⟨T.heights.shape, A.modulus, T.physicalSizes, none, A.thickness, A.poisson, none⟩ with
    | error e => rw [hc] at h; cases h
    | ok s =>
      rw [hc] at h
      cases h
      have hv : ValidArgs ⟨T.heights.shape, A.modulus, T.physicalSizes, none, A.thickness, A.poisson, none⟩ := by
        refine ⟨by simp [hsz, hT.sx_pos, hT.sy_pos], hA.modulus_pos, hA.poisson_low, hA.poisson_high, hA.thickness⟩
      obtain ⟨_, _, P⟩ := per_of_construct hv hc hT.heights
      refine ⟨P.grid, ?_, rfl⟩
      rw [P.sizes]; simp [size, hsz]
  · split at h
    · split at h
      · cases h
      · split at h
        · cases h
        · cases hc : constructFree ⟨T.heights.shape, A.modulus / (1 - A.poisson ^ 2), T.physicalSizes, none⟩ with
          | error e => rw [hc] at h; cases h
          | ok s =>
            rw [hc] at h
            cases h
            have h1 : 0 < 1 - A.poisson ^ 2 := by nlinarith [hA.poisson_low, hA.poisson_high]
            have hv : ValidFree ⟨T.heights.shape, A.modulus / (1 - A.poisson ^ 2), T.physicalSizes, none⟩ := by
              have := hA.modulus_pos
              constructor
              · simp [hsz, hT.sx_pos, hT.sy_pos]
              · show 0 < A.modulus / (1 - A.poisson ^ 2); positivity
            obtain ⟨_, _, P⟩ := free_of_construct hv hc hT.heights
            refine ⟨P.grid, ?_, rfl⟩
            rw [P.sizes]; simp [sizeF, hsz]
    · cases h

lemma cli_system_ready (hT : ValidTopo T nx ny sx sy) {A : CliArgs} (hA : ValidCli A) {Y : AnySys} (h : cliSystem T A = .ok Y) :
    Ready nx ny sx sy T.heights A.hardness Y ∧ Y.heights = T.heights := by
  unfold cliSystem at h
  cases hs : cliSubstrate T A with
  | error e => rw [hs] at h; cases h
  | ok sub =>
    obtain ⟨h1, h2, h3⟩ := cli_substrate_ready hT hA hs
    obtain ⟨S, k1, k2, k3, -⟩ := (C56_incompatible_resolution_iff sub T.heights).2 (hT.heights.trans h1.symm)
    rw [hs] at h
    simp only [bind, Except.bind, k1] at h
    cases hh : A.hardness with
    | none =>
      rw [hh] at h
      cases h
      exact ⟨⟨by rw [← k2] at h1; exact h1, by rw [← k2] at h2; exact h2, by rw [← k2] at h3; exact h3, ⟨S, rfl, k3⟩⟩, k3⟩
    | some H =>
      rw [hh] at h
      cases h
      have ht : S.sub.topo = [nx, ny] := by rw [k2]; exact h1
      refine ⟨⟨ht, by rw [← k2] at h2; exact h2, by rw [← k2] at h3; exact h3, ⟨_, rfl, ⟨?_, ?_, ?_, ?_⟩, rfl, rfl, ?_⟩⟩, k3⟩
      · show S.heights.shape = S.sub.topo
        rw [k3, ht]; exact hT.heights
      · show T.heights.shape = S.sub.topo
        rw [ht]; exact hT.heights
      · show T.heights.shape = S.sub.topo
        rw [ht]; exact hT.heights
      · intro x _
        simp [k3, NdArray.map]
      · simp [Topo.areaPerPt, hT.sizes, hT.heights]

/-! ## Output -/

lemma writeMaps_names {α : Type} (s : String) : ∀ (m : List (Option String)) (d : List α),
    (writeMaps s m d).map Prod.fst = (m.filterMap id).map (· ++ s)
  | [], _ => rfl
  | none :: m, d => by simp [writeMaps, writeMaps_names s m d]
  | some f :: m, d => by simp [writeMaps, writeMaps_names s m []]

lemma writeFields_mem (s : String) : ∀ (m : List (Option String)) (as : List (NdArray ℝ)) (q : ℕ) (fn : String) (a : NdArray ℝ),
    m[q]? = some (some fn) → as[q]? = some a → (fn ++ s, a) ∈ writeFields s m as
  | [], as, q, fn, a, h, _ => by simp at h
  | _ :: m, [], q, fn, a, _, h => by simp at h
  | none :: m, b :: as, 0, fn, a, h, _ => by simp at h
  | none :: m, b :: as, q + 1, fn, a, h, h' => by
    simp only [writeFields]
    exact writeFields_mem s m as q fn a (by simpa using h) (by simpa using h')
  | some f :: m, b :: as, 0, fn, a, h, h' => by
    simp only [List.getElem?_cons_zero, Option.some.injEq] at h h'
    subst h; subst h'
    simp [writeFields]
  | some f :: m, b :: as, q + 1, fn, a, h, h' => by
    simp only [writeFields, List.mem_cons]
    exact .inr (writeFields_mem s m as q fn a (by simpa using h) (by simpa using h'))

lemma fields_show {h' : NdArray ℝ} {hh : List ℕ → ℝ} {r : OptResult} (ha : AgreeOn nx ny h' hh) (hf : Fits nx ny r)
    (maps : List (Option String)) (s : String) (q : ℕ) (fn : String) (hq : q < 4) (hm : maps[q]? = some (some fn)) :
    ∃ a, (fn ++ s, a) ∈ writeFields s maps (mapFields (sx * sy / (nx * ny)) h' r.activeSet ⟨[nx, ny], r.x.get⟩ r.jac r.offset) ∧
      MapShows nx ny sx sy hh r q a := by
  interval_cases q
  · exact ⟨_, writeFields_mem s maps _ 0 fn _ hm rfl, rfl, fun _ => rfl⟩
  · exact ⟨_, writeFields_mem s maps _ 1 fn _ hm rfl, hf.jac, fun _ _ _ _ => rfl⟩
  · exact ⟨_, writeFields_mem s maps _ 2 fn _ hm rfl, rfl, fun _ _ _ _ => rfl⟩
  · refine ⟨_, writeFields_mem s maps _ 3 fn _ hm rfl, rfl, fun i hi j hj => ?_⟩
    dsimp only
    rw [ha i hi j hj]; ring

lemma dump_eq {h' : NdArray ℝ} {hh : List ℕ → ℝ} {r : OptResult} (hs : h'.shape = [nx, ny]) (ha : AgreeOn nx ny h' hh) (hf : Fits nx ny r) :
    dump [sx, sy] (sx * sy / (nx * ny)) h' ⟨[nx, ny], r.x.get⟩ r.jac r.offset = logLine nx ny sx sy hh r := by
  have hm : mean nx ny h' = mean nx ny ⟨[nx, ny], hh⟩ := by
    unfold mean
    congr 1
    apply sum_congr rfl; intro i hi
    apply sum_congr rfl; intro j hj
    exact ha i (mem_range.1 hi) j (mem_range.1 hj)
  unfold dump logLine
  dsimp only
  rw [npMean2 hs, npMean2 rfl, sum2 hf.jac, countPositive2 hf.jac, hs, hm]
  have : mean nx ny (⟨[nx, ny], r.x.get⟩ : NdArray ℝ) = mean nx ny r.x := rfl
  rw [this]
  simp

lemma suffix_eq (n i : ℕ) : suffix n i = fileEnding n i := rfl

end CM.Cli
