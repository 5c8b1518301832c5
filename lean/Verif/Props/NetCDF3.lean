import Verif.Props.NetCDF2
/-!
# Properties of the frame database (C77, C78, C117-C119)
-/
namespace CM.NetCDF

/-! ## C77 -/

/-- **C77.** The first shape of two entries is accepted by every container without a shape … -/
theorem C77_first (C : File) (h : C.defined = false) (nx ny : ℕ) (ndof : Option ℕ) (hd : ndof = none ∨ ndof = some 1) :
    (setShape C [nx, ny] ndof).1 = .ok () ∧ (setShape C [nx, ny] ndof).2.defined = true ∧ (setShape C [nx, ny] ndof).2.shape = some [nx, ny] ∧ (setShape C [nx, ny] ndof).2.shape2 = some (nx, ny) := by
  have hs : isSingle ndof = true := by rcases hd with rfl | rfl <;> rfl
  unfold setShape
  rw [h, if_neg (by simp), if_pos hs]
  exact ⟨rfl, rfl, rfl, rfl⟩

/-- … and nothing that is done afterwards changes it. -/
theorem C77_fixed (rnd : ℝ → ℝ) (C : File) (h : C.defined = true) (ops : List Op) :
    (run rnd C ops).defined = true ∧ (run rnd C ops).shape = C.shape ∧ (run rnd C ops).shape2 = C.shape2 := by
  induction ops generalizing C with
  | nil => exact ⟨h, rfl, rfl⟩
  | cons op ops ih =>
    obtain ⟨a, b, c⟩ := (step_ext rnd C op 0 "x").1.defined h
    obtain ⟨a', b', c'⟩ := ih (step rnd C op).2 a
    exact ⟨a', b'.trans b, c'.trans c⟩

/-- **C77.** Afterwards another shape of two entries raises `RuntimeError` and the same one is accepted; neither changes anything. -/
theorem C77_again (C : File) (h : C.defined = true) (nx ny : ℕ) (hs : C.shape = some [nx, ny]) (mx my : ℕ) :
    setShape C [mx, my] none = (if mx = nx ∧ my = ny then .ok () else .error .runtimeError, C) := by
  unfold setShape
  rw [h, if_pos rfl, hs]
  simp only [isSingle, if_true, allEqual, List.length_cons, List.length_nil]
  by_cases hm : mx = nx ∧ my = ny
  · obtain ⟨rfl, rfl⟩ := hm
    simp
  · have : ([mx, my] == [nx, ny]) = false := by
      rw [beq_eq_false_iff_ne]
      intro he
      injection he with h1 h2
      injection h2 with h2 _
      exact hm ⟨h1, h2⟩
    rw [this, if_neg hm]
    simp

/-- **C77, refuted.** A one-entry shape is accepted by a square grid; on other grids it raises `IndexError`. -/
theorem C77_one_entry_partial (C : File) (h : C.defined = true) (nx ny : ℕ) (hs : C.shape = some [nx, ny]) (n : ℕ) :
    setShape C [n] none = (if nx = n ∧ ny = n then .ok () else .error .indexError, C) := by
  unfold setShape
  rw [h, if_pos rfl, hs]
  simp only [isSingle, if_true, allEqual, List.length_cons, List.length_nil]
  by_cases hm : nx = n ∧ ny = n
  · obtain ⟨rfl, rfl⟩ := hm
    simp
  · have : [nx, ny].all (· == n) = false := by
      simp only [List.all_cons, List.all_nil, Bool.and_true, Bool.and_eq_false_iff, beq_eq_false_iff_ne]
      tauto
    rw [if_neg hm]
    simp [this]

example : setShape (run (fun x => x) (create true 0) [.shape [8, 8] none]) [8] none = (.ok (), run (fun x => x) (create true 0) [.shape [8, 8] none]) :=
  C77_one_entry_partial _ rfl 8 8 rfl 8

/-! ## C78 -/

lemma findIdx_at (stem rest : List Char) (h : '@' ∉ stem) : (stem ++ '@' :: rest).findIdx (· = '@') = stem.length := by
  rw [List.findIdx_append]
  have : stem.findIdx (fun c => decide (c = '@')) = stem.length := by
    rw [List.findIdx_eq_length]
    intro c hc
    simp only [decide_eq_false_iff_not]
    rintro rfl
    exact h hc
  rw [this]
  simp [List.findIdx_cons]

lemma openNc_at (stem rest : List Char) (h : '@' ∉ stem) (h0 : stem ≠ []) (fr : Option ℤ) :
    openNc (String.ofList (stem ++ '@' :: rest)) fr = match pyInt rest with
      | some n => .ok (.frame (String.ofList stem) n)
      | none => .error .valueError := by
  unfold openNc
  simp only [String.toList_ofList, findIdx_at stem rest h]
  have h1 : 0 < stem.length := List.length_pos_of_ne_nil h0
  rw [if_pos ⟨by simp, h1⟩]
  have h2 : (stem ++ '@' :: rest).drop (stem.length + 1) = rest := by
    rw [← List.drop_drop, List.drop_left]
    rfl
  have h3 : (stem ++ '@' :: rest).take stem.length = stem := List.take_left
  rw [h2, h3]
  cases pyInt rest <;> rfl

/-- **C78.** `open("name@digits")` is the frame with that number of the file `name`, for every name and number, whatever the keyword says … -/
theorem C78_selector (stem : List Char) (h : '@' ∉ stem) (h0 : stem ≠ []) (l : List (Fin 10)) (hl : l ≠ []) (fr : Option ℤ) :
    openNc (String.ofList (stem ++ '@' :: digitText l)) fr = .ok (.frame (String.ofList stem) (decimal l))
    ∧ openNc (String.ofList (stem ++ '@' :: '-' :: digitText l)) fr = .ok (.frame (String.ofList stem) (-(decimal l : ℤ))) := by
  rw [openNc_at stem _ h h0, openNc_at stem _ h h0, pyInt_text l hl, pyInt_neg_text l hl]
  exact ⟨rfl, rfl⟩

/-- … and the same as `open(name, frame=n)` … -/
theorem C78_keyword (fn : String) (h : '@' ∉ fn.toList) (n : ℤ) : openNc fn (some n) = .ok (.frame fn n) ∧ openNc fn none = .ok (.container fn) := by
  unfold openNc
  have : fn.toList.findIdx (fun c => decide (c = '@')) = fn.toList.length := by
    rw [List.findIdx_eq_length]
    intro c hc
    simp only [decide_eq_false_iff_not]
    rintro rfl
    exact h hc
  simp only [this, lt_irrefl, false_and, if_false, and_self]

/-- … a name that begins with `@` is a plain name … -/
theorem C78_leading_at (rest : List Char) (fr : Option ℤ) :
    openNc (String.ofList ('@' :: rest)) fr = match fr with
      | some n => .ok (.frame (String.ofList ('@' :: rest)) n)
      | none => .ok (.container (String.ofList ('@' :: rest))) := by
  unfold openNc
  simp only [String.toList_ofList, List.findIdx_cons]
  cases fr <;> simp

/-- … and everything else after an `@` that is not a number raises `ValueError`; here shown for text that contains a letter outside the syntax of numbers, e.g. any path below a directory with an `@` in its name. -/
theorem C78_not_a_number (stem rest : List Char) (h : '@' ∉ stem) (h0 : stem ≠ []) (hr : '/' ∈ rest) (fr : Option ℤ) :
    openNc (String.ofList (stem ++ '@' :: rest)) fr = .error .valueError := by
  have hd : ∀ l : List Char, '/' ∈ l → ∀ acc, digitsFrom acc l = none := by
    have : ∀ m : ℕ, ∀ l : List Char, l.length ≤ m → '/' ∈ l → ∀ acc, digitsFrom acc l = none := by
      intro m
      induction m with
      | zero =>
        intro l hl hm
        rw [List.length_eq_zero_iff.1 (Nat.le_zero.1 hl)] at hm
        cases hm
      | succ m ih =>
        intro l hl hm acc
        match l, hl, hm with
        | '_' :: c :: r, hl, hm =>
          rw [digitsFrom]
          cases hc : digit? c with
          | none => rfl
          | some d =>
            simp only [Option.bind_some]
            refine ih r (by simp at hl; omega) ?_ _
            rcases List.mem_cons.1 hm with h | h
            · exact absurd h (by decide)
            · rcases List.mem_cons.1 h with h | h
              · rw [← h] at hc; simp [show digit? '/' = none by decide] at hc
              · exact h
        | c :: r, hl, hm =>
          by_cases hu : c = '_'
          · subst hu
            cases r with
            | nil => rcases List.mem_cons.1 hm with h | h; exact absurd h (by decide); cases h
            | cons c' r' =>
              rw [digitsFrom]
              cases hc : digit? c' with
              | none => rfl
              | some d =>
                simp only [Option.bind_some]
                refine ih r' (by simp at hl; omega) ?_ _
                rcases List.mem_cons.1 hm with h | h
                · exact absurd h (by decide)
                · rcases List.mem_cons.1 h with h | h
                  · rw [← h] at hc; simp [show digit? '/' = none by decide] at hc
                  · exact h
          · rw [digitsFrom_cons acc c r hu]
            cases hc : digit? c with
            | none => rfl
            | some d =>
              simp only [Option.bind_some]
              refine ih r (by simp at hl; omega) ?_ _
              rcases List.mem_cons.1 hm with h | h
              · rw [← h] at hc; simp [show digit? '/' = none by decide] at hc
              · exact h
    exact fun l hm => this l.length l le_rfl hm
  have hn : ∀ l : List Char, '/' ∈ l → pyNat l = none := by
    intro l hm
    cases l with
    | nil => cases hm
    | cons c r =>
      simp only [pyNat]
      cases hc : digit? c with
      | none => rfl
      | some d =>
        simp only [Option.bind_some]
        rcases List.mem_cons.1 hm with h | h
        · rw [← h] at hc; simp [show digit? '/' = none by decide] at hc
        · exact hd r h d
  have hdrop : ∀ l : List Char, '/' ∈ l → '/' ∈ l.dropWhile Char.isWhitespace := by
    intro l hm
    rw [← List.takeWhile_append_dropWhile (p := Char.isWhitespace) (l := l)] at hm
    rcases List.mem_append.1 hm with h | h
    · have h' := List.all_takeWhile (p := Char.isWhitespace) (l := l)
      rw [List.all_eq_true] at h'
      exact absurd (h' _ h) (by decide)
    · exact h
  have hs : '/' ∈ strip rest := by
    unfold strip
    rw [List.mem_reverse]
    apply hdrop
    rw [List.mem_reverse]
    exact hdrop rest hr
  have hi : pyInt rest = none := by
    unfold pyInt
    split
    · rename_i r heq
      rw [heq] at hs
      rw [hn r]
      · rfl
      · rcases List.mem_cons.1 hs with h | h
        · exact absurd h (by decide)
        · exact h
    · rename_i r heq
      rw [heq] at hs
      rw [hn r]
      · rfl
      · rcases List.mem_cons.1 hs with h | h
        · exact absurd h (by decide)
        · exact h
    · rw [hn _ hs]; rfl
  rw [openNc_at stem rest h h0, hi]

example : openNc "run.nc@12" none = .ok (.frame "run.nc" 12) := by
  have := (C78_selector "run.nc".toList (by decide) (by decide) [1, 2] (by simp) none).1
  simpa [decimal, digitText] using this

/-! ## C117: parts of a grid -/

/-- **C117.** `set_grid` changes the points of the part and no others: inside the part reading gives the new values, elsewhere what was there before, and other frames and variables keep their contents. -/
theorem C117_grid (rnd : ℝ → ℝ) (C : File) (F : Frame) (n : String) (NX NY nx ny x0 y0 : ℕ) (g : ℕ → ℕ → ℝ) (var : Var) (hv : C.vars n = some var) (hf : var.framed = true)
    (hd : var.dims = [NX, NY]) (hk : var.kind ≠ .i4) (hs : C.shape ≠ none) (hi : 0 ≤ F.i) (hx : x0 + nx ≤ NX) (hy : y0 + ny ≤ NY) :
    (setGrid rnd C F n nx ny g x0 y0).1 = .ok () ∧ ∃ var', (setGrid rnd C F n nx ny g x0 y0).2.vars n = some var'
      ∧ (∀ a b, a < nx → b < ny → ∃ y, var'.data F.i.toNat [x0 + a, y0 + b] = some y ∧ Keeps rnd var.kind (g a b) y)
      ∧ (∀ p q, ¬ (x0 ≤ p ∧ p < x0 + nx ∧ y0 ≤ q ∧ q < y0 + ny) → var'.data F.i.toNat [p, q] = var.data F.i.toNat [p, q])
      ∧ (∀ j, j ≠ F.i.toNat → ∀ p q, var'.data j [p, q] = var.data j [p, q])
      ∧ ∀ m, m ≠ n → (setGrid rnd C F n nx ny g x0 y0).2.vars m = C.vars m := by
  obtain ⟨sh, hsh⟩ := Option.ne_none_iff_exists'.1 hs
  have hc : createIfMissing C n (.arr [nx, ny] fun l => g (l.headD 0) (l.tail.headD 0)) (some sh) = .ok C := by unfold createIfMissing; rw [hv]
  unfold setGrid
  rw [hsh]
  simp only [hc, hv]
  rw [if_neg (by omega)]
  obtain ⟨k, fm, dm, dt⟩ := var
  simp only at hf hd hk ⊢
  subst hf hd
  simp only
  rw [if_neg (by omega)]
  refine ⟨rfl, _, if_pos rfl, ?_, ?_, ?_, ?_⟩
  · intro a b ha hb
    simp only
    rw [if_pos ⟨trivial, by omega, by omega, by omega, by omega⟩, Nat.add_sub_cancel_left, Nat.add_sub_cancel_left]
    unfold entry
    cases k with
    | i4 => exact absurd rfl hk
    | f4 => exact ⟨_, rfl, rfl⟩
    | f8 => exact ⟨_, rfl, rfl⟩
  · intro p q h
    simp only
    rw [if_neg (by omega)]
  · intro j hj p q
    simp only
    rw [if_neg (by omega)]
  · intro m hm
    simp only [if_neg hm]

/-! ## C118: the rigid surface -/

/-- **C118.** A rigid surface that was accepted is read back exactly, in double precision, also if the container stores single precision, and whatever is done afterwards, except for storing another surface or writing to the variable `h` itself. -/
theorem C118_rigid_surface (rnd : ℝ → ℝ) (C : File) (hx hy : ℕ) (h : ℕ → ℕ → ℝ) (ndof : Option ℕ) (hok : (setRigid C hx hy h ndof).1 = .ok ()) (ops : List Op)
    (hops : ∀ op ∈ ops, match op with
      | .write _ n _ => n ≠ "h"
      | .grid _ n _ _ _ _ _ => n ≠ "h"
      | .rigid _ _ _ _ => False
      | _ => True) :
    ∃ get, getRigid (run rnd (setRigid C hx hy h ndof).2 ops) = .ok (.data [hx, hy] get) ∧ ∀ a b, a < hx → b < hy → get [a, b] = some (h a b) := by
  -- after the call
  have h0 : ∃ var, (setRigid C hx hy h ndof).2.vars "h" = some var ∧ var.framed = false ∧ var.dims = [hx, hy] ∧ ∀ a b, a < hx → b < hy → var.data 0 [a, b] = some (h a b) := by
    unfold setRigid at hok ⊢
    cases hr : setShape C [hx, hy] ndof with
    | mk r C' =>
      rw [hr] at hok
      cases r with
      | error e => cases hok
      | ok u =>
        simp only at hok ⊢
        generalize ensureH C' hx hy = C'' at hok ⊢
        cases hv : C''.vars "h" with
        | none => rw [hv] at hok; cases hok
        | some var =>
          rw [hv] at hok
          simp only at hok ⊢
          by_cases hc : var.framed = false ∧ var.dims = [hx, hy]
          · rw [if_pos hc]
            refine ⟨{ var with data := fun _ idx => match idx with
              | [a, b] => if a < hx ∧ b < hy then some (h a b) else none
              | _ => none }, by simp only [if_true]; rfl, hc.1, hc.2, fun a b ha hb => ?_⟩
            simp only
            rw [if_pos ⟨ha, hb⟩]
          · rw [if_neg hc] at hok; cases hok
  generalize (setRigid C hx hy h ndof).2 = C1 at h0
  have key : ∀ (ops : List Op) (C1 : File) (var : Var), C1.vars "h" = some var → (∀ op ∈ ops, match op with
      | .write _ n _ => n ≠ "h"
      | .grid _ n _ _ _ _ _ => n ≠ "h"
      | .rigid _ _ _ _ => False
      | _ => True) → (run rnd C1 ops).vars "h" = some var := by
    have hset : ∀ (C1 : File) (s : List ℕ) (nd : Option ℕ), (setShape C1 s nd).2.vars = C1.vars := by
      intro C1 s nd
      unfold setShape
      by_cases hd : C1.defined = true
      · rw [if_pos hd]
        cases C1.shape with
        | none => rfl
        | some sh =>
          simp only
          cases isSingle nd with
          | true =>
            simp only [if_true]
            cases allEqual s sh with
            | error e => rfl
            | ok b => cases b <;> simp only <;> split_ifs <;> rfl
          | false =>
            simp only [Bool.false_eq_true, if_false]
            cases allEqual (nd.getD 1 :: s) sh with
            | error e => rfl
            | ok b => cases b <;> rfl
      · rw [if_neg hd]
        have : ∀ s, (defineStructure C1 s).2.vars = C1.vars := by
          intro s
          unfold defineStructure
          simp only
          split <;> rfl
        split_ifs <;> exact this _
    have hcr : ∀ (C1 C2 : File) (n : String) (v : Value) (sh : Option (List ℕ)), createIfMissing C1 n v sh = .ok C2 → n ≠ "h" → C2.vars "h" = C1.vars "h" := by
      intro C1 C2 n v sh hc hn
      have hadd : ∀ k f d, (C1.add n k f d).vars "h" = C1.vars "h" := by
        intro k f d
        simp only [File.add]
        rw [if_neg hn.symm]
      have hA : ∀ k f d, Except.ok (ε := PyErr) (C1.add n k f d) = .ok C2 → C2.vars "h" = C1.vars "h" := by
        intro k f d he
        injection he with he
        rw [← he, hadd]
      unfold createIfMissing at hc
      cases hv : C1.vars n with
      | some var => rw [hv] at hc; injection hc with hc; rw [hc]
      | none =>
        rw [hv] at hc
        cases v with
        | int z => simp only at hc; split_ifs at hc; exact hA _ _ _ hc
        | real x => simp only at hc; split_ifs at hc; exact hA _ _ _ hc
        | other => cases hc
        | arr s g =>
          simp only at hc
          by_cases hs : sh.getD s = []
          · rw [if_pos hs] at hc
            split_ifs at hc
            exact hA _ _ _ hc
          · rw [if_neg hs] at hc
            cases hsh : C1.shape with
            | none => rw [hsh] at hc; cases hc
            | some shp =>
              rw [hsh] at hc
              simp only at hc
              by_cases h1 : sh.getD s = shp
              · rw [if_pos h1] at hc
                split_ifs at hc
                · exact hA _ _ _ hc
                · exact hA _ _ _ hc
              · rw [if_neg h1] at hc
                cases hs2 : C1.shape2 with
                | none => rw [hs2] at hc; simp only at hc; split_ifs at hc
                | some p =>
                  rw [hs2] at hc
                  simp only at hc
                  split_ifs at hc
                  exact hA _ _ _ hc
    have has : ∀ (C1 : File) (i : ℤ) (n : String) (v : Value), n ≠ "h" → (assign rnd C1 i n v).2.vars "h" = C1.vars "h" := by
      intro C1 i n v hn
      unfold assign
      cases C1.vars n with
      | none => rfl
      | some var =>
        simp only
        by_cases h1 : i < 0
        · rw [if_pos h1]
        rw [if_neg h1]
        generalize (if var.framed = true then var.dims else var.dims.tail) = dims
        cases v.entries dims with
        | none => rfl
        | some g =>
          simp only
          split_ifs
          · rfl
          · simp only [if_neg hn.symm]
          · rfl
          · simp only [if_neg hn.symm]
    intro ops
    induction ops with
    | nil => intro C1 var hv _; exact hv
    | cons op ops ih =>
      intro C1 var hv hops
      refine ih (step rnd C1 op).2 var ?_ fun o ho => hops o (by simp [ho])
      have ho := hops op (by simp)
      rw [← hv]
      cases op with
      | write i n v =>
        simp only [step]
        cases frame C1 i with
        | error e => rfl
        | ok F =>
          simp only [frameSet]
          by_cases h1 : n = ""
          · rw [if_pos h1]
          by_cases h2 : isPrivate n = true
          · rw [if_neg h1, if_pos h2]
          rw [if_neg h1, if_neg h2]
          cases hc : createIfMissing C1 n v none with
          | error e => rfl
          | ok C2 => simp only; rw [has C2 F.i n v ho, hcr C1 C2 n v none hc ho]
      | grid i n nx ny g x0 y0 =>
        simp only [step]
        cases frame C1 i with
        | error e => rfl
        | ok F =>
          simp only [setGrid]
          cases C1.shape with
          | none => rfl
          | some sh =>
            simp only
            cases hc : createIfMissing C1 n (.arr [nx, ny] fun l => g (l.headD 0) (l.tail.headD 0)) (some sh) with
            | error e => rfl
            | ok C2 =>
              have hc' := hcr C1 C2 n _ _ hc ho
              simp only
              cases C2.vars n with
              | none => exact hc'
              | some var =>
                simp only
                by_cases hF : F.i < 0
                · rw [if_pos hF]; exact hc'
                rw [if_neg hF]
                split
                · split_ifs
                  · exact hc'
                  · simp only [if_neg ho.symm]; exact hc'
                · exact hc'
      | shape s nd => simp only [step]; rw [hset]
      | rigid _ _ _ _ => exact absurd ho id
      | next =>
        simp only [step, nextFrame]
        cases frame C1 C1.cur <;> rfl
      | cursor _ => rfl
  obtain ⟨var, h1, h2, h3, h4⟩ := h0
  refine ⟨var.data 0, ?_, h4⟩
  unfold getRigid
  rw [key ops C1 var h1 hops]
  simp only
  rw [if_pos ⟨h2, by rw [h3]; rfl⟩, h3]

example (h : ℕ → ℕ → ℝ) : (setRigid (create false 0) 2 3 h none).1 = .ok () := by
  simp [setRigid, setShape, create, isSingle, defineStructure, ensureH, File.add]

/-! ## C119: reopening -/

/-- **C119.** A container that is closed and opened again shows the same frames and the same values, for every name, frame and history; the cursor starts where the caller says. -/
theorem C119_reopen (C C' : File) (d : Bool) (fr : ℤ) (h : reopen C d fr = .ok C') :
    C'.frames = C.frames ∧ (∀ i, frame C' i = frame C i) ∧ (∀ F n, frameGet C' F n = frameGet C F n) ∧ getRigid C' = getRigid C ∧ C'.cur = C.frameNumber fr := by
  unfold reopen at h
  cases hs : C.shape2 with
  | none => rw [hs] at h; cases h
  | some p =>
    rw [hs] at h
    simp only at h
    split_ifs at h with hd
    all_goals
      injection h with h
      subst h
      refine ⟨rfl, fun i => ?_, fun F n => rfl, rfl, ?_⟩
      · unfold frame
        rw [hd]
      · unfold File.frameNumber
        simp only
        split_ifs <;> omega

/-- **C119, refuted for several degrees of freedom.** The number of degrees of freedom is not recovered: after reopening, the shape that was set cannot be set again. -/
theorem C119_ndof_partial (d e : Bool) (ndof nx ny : ℕ) (h1 : ndof ≠ 1) (fr : ℤ) :
    ∃ C', reopen (setShape (create d 0) [nx, ny] (some ndof)).2 e fr = .ok C' ∧ (setShape (create d 0) [nx, ny] (some ndof)).1 = .ok ()
      ∧ (setShape C' [nx, ny] (some ndof)).1 = .error .valueError ∧ (setShape C' [nx, ny] none).1 = .ok () := by
  have hs : isSingle (some ndof) = false := by simp [isSingle, h1]
  refine ⟨_, by simp [setShape, create, hs, defineStructure, reopen]; rfl, by simp [setShape, create, hs, defineStructure], ?_, ?_⟩
  · simp [setShape, hs, allEqual]
  · simp [setShape, isSingle, allEqual]

end CM.NetCDF
