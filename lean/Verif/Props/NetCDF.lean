import Verif.Lemmas.NetCDF2
/-!
# Properties of the frame database (C74-C78, C117-C119)
-/
namespace CM.NetCDF

lemma run_append (rnd : ℝ → ℝ) (C : File) (a b : List Op) : run rnd C (a ++ b) = run rnd (run rnd C a) b := List.foldl_append

/-- Reading a stored frame. -/
lemma reads_of (C : File) (j : ℕ) (n : String) (hn : PlainName n) (var : Var) (hv : C.vars n = some var) (hf : var.framed = true) (hj : j < C.frames) (P : List ℕ → ℝ → Prop)
    (hP : ∀ idx, Inside var.dims idx → ∃ y, var.data j idx = some y ∧ P idx y) : C.Reads j n var.dims P := by
  refine ⟨⟨j, fun _ => none⟩, var.data j, by unfold frame; rw [if_neg (by omega)], ?_, hP⟩
  unfold frameGet
  rw [if_neg hn.1, if_neg (by rw [hn.2.1]; simp)]
  unfold fetch
  rw [hv]
  simp only [hf, if_true, Int.toNat_natCast]
  rw [if_neg (by omega), if_neg (by omega)]

/-- **C74.** After any history, a write that succeeded is read back: whatever is done afterwards, as long as that frame of that variable is not written again, reading it gives the value, up to the storage type of the variable. -/
theorem C74_last_write (rnd : ℝ → ℝ) (d : Bool) (f : ℕ) (before after : List Op) (i : ℤ) (n : String) (v : Value) (hn : PlainName n)
    (hok : (step rnd (run rnd (create d f) before) (.write i n v)).1 = .ok ())
    (hu : Untouched rnd ((run rnd (create d f) before).frameNumber i) n (step rnd (run rnd (create d f) before) (.write i n v)).2 after) :
    ∃ k dims, (run rnd (create d f) (before ++ .write i n v :: after)).kindOf n = some k ∧ (run rnd (create d f) (before ++ .write i n v :: after)).dimsOf n = some dims ∧ v.Fits dims
      ∧ (run rnd (create d f) (before ++ .write i n v :: after)).Reads ((run rnd (create d f) before).frameNumber i) n dims fun idx y => Keeps rnd k (v.reads idx) y := by
  rw [run_append]
  have hfr := fun var => run_framed rnd d f before n hn.2.2 var
  generalize run rnd (create d f) before = C at hok hu hfr ⊢
  change ∃ k dims, (run rnd (step rnd C (.write i n v)).2 after).kindOf n = some k ∧ (run rnd (step rnd C (.write i n v)).2 after).dimsOf n = some dims ∧ v.Fits dims ∧ (run rnd (step rnd C (.write i n v)).2 after).Reads _ n dims _
  simp only [step] at hok hu ⊢
  cases hF : frame C i with
  | error e => rw [hF] at hok; cases hok
  | ok F =>
    rw [hF] at hok hu
    simp only at hok hu ⊢
    rw [← frame_number C i F hF] at hu ⊢
    unfold frameSet at hok hu ⊢
    rw [if_neg hn.1, if_neg (by rw [hn.2.1]; simp)] at hok hu ⊢
    cases hc : createIfMissing C n v none with
    | error e => rw [hc] at hok; cases hok
    | ok C' =>
      rw [hc] at hok hu
      simp only at hok hu ⊢
      have hx := (createIfMissing_ext C n v none C' hc 0 n).1
      have hfr' : ∀ var, C'.vars n = some var → var.framed = true := by
        intro var hv
        cases h0 : C.vars n with
        | none => exact hx.framed n var hn.2.2 h0 hv
        | some var0 =>
          obtain ⟨v1, a1, _, a3, _⟩ := hx.vars n var0 h0
          rw [hv] at a1
          injection a1 with a1
          rw [a1, a3]
          exact hfr var0 h0
      obtain ⟨var, g, hi, hv, he, hj, var', hv', hk, hf', hd, hdata⟩ := assign_ok rnd C' F.i n v hfr' hok
      obtain ⟨e1, e2⟩ := run_ext rnd F.i.toNat n hn.2.2 after (assign rnd C' F.i n v).2
      rw [Int.toNat_of_nonneg hi] at e2
      obtain ⟨var2, b1, b2⟩ := e2 hu var' hv' hf'
      obtain ⟨var3, c1, c2, c3, c4⟩ := e1.vars n var' hv'
      rw [b1] at c1
      injection c1 with c1
      subst c1
      obtain ⟨g1, g2⟩ := entries_fits v var.dims g he
      refine ⟨var.kind, var.dims, by simp only [File.kindOf, b1, Option.map_some]; rw [c2, hk], by simp only [File.dimsOf, b1, Option.map_some]; rw [c4, hd], g1, ?_⟩
      have := reads_of _ F.i.toNat n hn var2 b1 (by rw [c3, hf']) (lt_of_lt_of_le hj e1.frames) (fun idx y => Keeps rnd var.kind (v.reads idx) y) (by
        intro idx hidx
        rw [c4, hd, ← inside_iff] at hidx
        obtain ⟨x, h1, h2⟩ := hdata idx hidx
        refine ⟨x, by rw [b2]; exact h2, ?_⟩
        rw [← g2 idx hidx]
        exact convert_keeps rnd _ _ _ h1)
      rw [c4, hd, Int.toNat_of_nonneg hi] at this
      exact this

/-- **C74.** The storage type of a variable is fixed by the first value written to it … -/
theorem C74_first_kind (rnd : ℝ → ℝ) (C : File) (i : ℤ) (n : String) (v : Value) (hn : PlainName n) (h0 : C.kindOf n = none)
    (hok : (step rnd C (.write i n v)).1 = .ok ()) : (step rnd C (.write i n v)).2.kindOf n = v.kind C.double := by
  have h0' : C.vars n = none := by simpa [File.kindOf] using h0
  simp only [step] at hok ⊢
  cases hF : frame C i with
  | error e => rw [hF] at hok; cases hok
  | ok F =>
    rw [hF] at hok
    simp only at hok ⊢
    unfold frameSet at hok ⊢
    rw [if_neg hn.1, if_neg (by rw [hn.2.1]; simp)] at hok ⊢
    cases hc : createIfMissing C n v none with
    | error e => rw [hc] at hok; cases hok
    | ok C' =>
      rw [hc] at hok
      simp only at hok ⊢
      have hk : ∃ k, (∃ dims, C' = C.add n k true dims) ∧ v.kind C.double = some k := by
        unfold createIfMissing at hc
        rw [h0'] at hc
        cases v with
        | int z => simp only at hc; split_ifs at hc; exact ⟨_, ⟨_, (by injection hc with hc; exact hc.symm)⟩, rfl⟩
        | real x => simp only at hc; split_ifs at hc; exact ⟨_, ⟨_, (by injection hc with hc; exact hc.symm)⟩, rfl⟩
        | other => cases hc
        | arr s g =>
          simp only [Option.getD_none] at hc
          by_cases hs : s = []
          · rw [if_pos hs] at hc
            split_ifs at hc
            subst hs
            exact ⟨_, ⟨_, (by injection hc with hc; exact hc.symm)⟩, rfl⟩
          · rw [if_neg hs] at hc
            have hkind : (Value.arr s g).kind C.double = some C.floatKind := by
              cases s with
              | nil => exact absurd rfl hs
              | cons a s => unfold Value.kind File.floatKind; rfl
            refine ⟨C.floatKind, ?_, hkind⟩
            cases hsh : C.shape with
            | none => rw [hsh] at hc; cases hc
            | some shp =>
              rw [hsh] at hc
              simp only at hc
              by_cases h1 : s = shp
              · rw [if_pos h1] at hc
                split_ifs at hc
                · exact ⟨_, by injection hc with hc; exact hc.symm⟩
                · exact ⟨_, by injection hc with hc; exact hc.symm⟩
              · rw [if_neg h1] at hc
                cases hs2 : C.shape2 with
                | none => rw [hs2] at hc; simp only at hc; split_ifs at hc
                | some p =>
                  rw [hs2] at hc
                  simp only at hc
                  split_ifs at hc
                  exact ⟨_, by injection hc with hc; exact hc.symm⟩
      obtain ⟨k, ⟨dims, hC⟩, hv⟩ := hk
      obtain ⟨e1, _⟩ := assign_ext rnd C' F.i n v (if F.i = 0 then 1 else 0) n (by
        rintro ⟨_, h⟩
        split_ifs at h with h' <;> omega)
      obtain ⟨var, a1, a2, _, _⟩ := e1.vars n ⟨k, true, dims, fun _ _ => none⟩ (by rw [hC]; simp [File.add])
      simp only [File.kindOf, a1, Option.map_some]
      rw [a2, hv]

/-- The shape of a variable is fixed in the same way: the shape of the array that was written first, or none for a number. -/
theorem C74_dims_fixed (rnd : ℝ → ℝ) (C : File) (n : String) (dims : List ℕ) (h : C.dimsOf n = some dims) (ops : List Op) : (run rnd C ops).dimsOf n = some dims := by
  have key : ∀ C : File, ∀ op, C.dimsOf n = some dims → (step rnd C op).2.dimsOf n = some dims := by
    intro C op h
    obtain ⟨var, hv, hk⟩ := Option.map_eq_some_iff.1 h
    obtain ⟨v', a1, _, _, a2⟩ := (step_ext rnd C op 0 n).1.vars n var hv
    simp only [File.dimsOf, a1, Option.map_some]
    rw [a2, hk]
  induction ops generalizing C with
  | nil => exact h
  | cons op ops ih => exact ih _ (key C op h)

/-- … and nothing that is done afterwards changes it. -/
theorem C74_kind_fixed (rnd : ℝ → ℝ) (C : File) (n : String) (k : Kind) (h : C.kindOf n = some k) (ops : List Op) : (run rnd C ops).kindOf n = some k := by
  have key : ∀ C : File, ∀ op, C.kindOf n = some k → (step rnd C op).2.kindOf n = some k := by
    intro C op h
    obtain ⟨var, hv, hk⟩ := Option.map_eq_some_iff.1 h
    obtain ⟨v', a1, a2, _⟩ := (step_ext rnd C op 0 n).1.vars n var hv
    simp only [File.kindOf, a1, Option.map_some]
    rw [a2, hk]
  induction ops generalizing C with
  | nil => exact h
  | cons op ops ih => exact ih _ (key C op h)

/-- **C74, refuted for some names.** Reading `frame.name` as an attribute never looks into the file if the class itself has an attribute of that name, although the assignment `frame.name = value` stored the value in the file. -/
theorem C74_shadowed_partial (C : File) (F : Frame) (n : String) (hn : n = "index" ∨ n = "traj" ∨ n = "sync" ∨ n = "set_grid" ∨ n = "get_index" ∨ n = "get_traj") :
    frameAttr C F n = .ok (.ofClass n) ∧ PlainName n := by
  rcases hn with rfl | rfl | rfl | rfl | rfl | rfl <;> exact ⟨by simp [frameAttr, classNames], by unfold PlainName; decide⟩

/-- For all other names the two ways of reading agree. -/
theorem C74_attribute (C : File) (F : Frame) (n : String) (hn : n ∉ ["index", "traj", "sync", "set_grid", "get_index", "get_traj"]) : frameAttr C F n = frameGet C F n := by
  unfold frameAttr
  rw [if_neg]
  intro h
  apply hn
  simp only [classNames, List.mem_cons, List.not_mem_nil, or_false] at h ⊢
  tauto

/-- **C74, refuted for private names.** A name that begins with an underscore is kept by the frame object only; the file is not changed. -/
theorem C74_private_partial (rnd : ℝ → ℝ) (C : File) (F : Frame) (n : String) (v : Value) (hn : n.toList.head? = some '_') :
    (frameSet rnd C F n v).1 = .ok () ∧ (frameSet rnd C F n v).2.1 = C := by
  have h : n ≠ "" := by rintro rfl; simp at hn
  have hp : isPrivate n = true := by simp [isPrivate, hn]
  unfold frameSet
  rw [if_neg h, if_pos hp]
  exact ⟨rfl, rfl⟩

/-- A concrete history: the hypotheses of `C74_last_write` are met by a field written to frame 0 of a 2x2 grid and a later frame. -/
example (rnd : ℝ → ℝ) (g : List ℕ → ℝ) : PlainName "gap"
    ∧ (step rnd (run rnd (create true 0) [.shape [2, 2] none]) (.write 0 "gap" (.arr [2, 2] g))).1 = .ok ()
    ∧ Untouched rnd ((run rnd (create true 0) [.shape [2, 2] none]).frameNumber 0) "gap" (step rnd (run rnd (create true 0) [.shape [2, 2] none]) (.write 0 "gap" (.arr [2, 2] g))).2
        [.write 1 "gap" (.arr [2, 2] g), .write 0 "load" (.real 3)] := by
  refine ⟨by unfold PlainName; decide, ?_, ⟨?_, ?_, trivial⟩⟩
  · simp only [run, List.foldl_cons, List.foldl_nil, step, frame, setShape, create, isSingle, defineStructure, frameSet, createIfMissing]
    have h : isPrivate "gap" = false := by decide
    simp [h, assign, File.add, Value.entries, File.floatKind, convert]
  · simp [Touches, File.frameNumber]
  · simp [Touches]

end CM.NetCDF
