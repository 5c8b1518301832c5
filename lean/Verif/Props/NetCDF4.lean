import Verif.Lemmas.NetCDF3
/-!
# Data of the whole file, and closing (C176–C178)
-/
namespace CM.NetCDF

lemma contSet_saved (c : Cont) (n : String) (v : Value) : (contSet c n v).2.saved = c.saved := by
  have hnc : (setNcAttr c n v).2.saved = c.saved := by
    unfold setNcAttr
    split_ifs
    · rfl
    · split
      · split_ifs <;> rfl
      · rfl
  unfold contSet
  split_ifs
  · rfl
  · rfl
  · rfl
  · split
    · split <;> rfl
    · exact hnc

/-! ## C176 -/

/-- **C176.** An array that was assigned to a name of the container is read back exactly, in double precision, with its shape, also if the container stores single
precision, and whatever is done afterwards (frames, other names, surfaces), as long as nothing else is stored under that name and the container is not closed. -/
theorem C176_array (rnd : ℝ → ℝ) (c : Cont) (n : String) (hn : PublicName n) (s : List ℕ) (hs : s ≠ []) (g : List ℕ → ℝ)
    (hok : (cstep rnd c (.set n (.arr s g))).1 = .ok ()) (ops : List COp) (ho : ∀ op ∈ ops, ¬ Names n op)
    (hopen : (crun rnd c (.set n (.arr s g) :: ops)).saved = none) :
    (crun rnd c (.set n (.arr s g) :: ops)).Array n s g := by
  have hrun : crun rnd c (.set n (.arr s g) :: ops) = crun rnd (cstep rnd c (.set n (.arr s g))).2 ops := rfl
  rw [hrun] at hopen ⊢
  obtain ⟨hv, _⟩ := crun_other rnd n ops (cstep rnd c (.set n (.arr s g))).2 ho
  have key : ∃ var, (cstep rnd c (.set n (.arr s g))).2.file.vars n = some var ∧ var.framed = false ∧ var.dims = s
      ∧ var.data = fun _ idx => if inside s idx then some (g idx) else none := by
    obtain ⟨k, t, rfl⟩ := List.exists_cons_of_ne_nil hs
    simp only [cstep, contSet] at hok ⊢
    rw [if_neg hn.1, if_neg (by rw [hn.2.1]; simp)] at hok ⊢
    by_cases hc : c.saved.isSome = true
    · rw [if_pos hc] at hok; cases hok
    rw [if_neg hc] at hok ⊢
    cases hE : ensureWhole c.file n (k :: t) with
    | error e => rw [hE] at hok; cases hok
    | ok C =>
      rw [hE] at hok
      simp only [assignWhole] at hok ⊢
      cases hV : C.vars n with
      | none => rw [hV] at hok; cases hok
      | some var =>
        rw [hV] at hok
        simp only at hok ⊢
        by_cases hd : var.framed = false ∧ var.dims = k :: t
        · rw [if_pos hd]
          exact ⟨{ var with data := fun _ idx => if inside (k :: t) idx then some (g idx) else none }, if_pos rfl, hd.1, hd.2, rfl⟩
        · rw [if_neg hd] at hok; cases hok
  obtain ⟨var, h1, h2, h3, h4⟩ := key
  refine ⟨var.data 0, ?_, fun idx hi => ?_⟩
  · unfold contGet
    rw [if_neg hn.1, if_neg (by rw [hn.2.1]; simp), hopen, if_neg (by simp), hv, h1]
    simp only [fetchWhole, h2, Bool.false_eq_true, if_false, h3]
  · rw [h4]
    simp only
    rw [if_pos ((inside_iff' s idx).2 hi)]

/-- **C176.** A number assigned to a name that is not the name of a variable is read back exactly, as long as nothing else is stored under that name and the container is
not closed. -/
theorem C176_number_partial (rnd : ℝ → ℝ) (c : Cont) (hc : c.saved = none) (n : String) (hn : PublicName n) (hv : c.file.vars n = none) (x : ℝ) (ops : List COp)
    (ho : ∀ op ∈ ops, ¬ Names n op) (hopen : (crun rnd c (.set n (.real x) :: ops)).saved = none) :
    (cstep rnd c (.set n (.real x))).1 = .ok () ∧ (crun rnd c (.set n (.real x) :: ops)).Number n x := by
  have hstep : cstep rnd c (.set n (.real x)) = (.ok (), { c with attrs := fun s => if s = n then some (.real x) else c.attrs s }) := by
    simp only [cstep, contSet]
    rw [if_neg hn.1, if_neg (by rw [hn.2.1]; simp), if_neg (by simp [hc])]
    simp only [setNcAttr]
    rw [if_neg hn.2.2]
  refine ⟨by rw [hstep], .real x, ?_, .inl rfl⟩
  have hrun : crun rnd c (.set n (.real x) :: ops) = crun rnd (cstep rnd c (.set n (.real x))).2 ops := rfl
  rw [hrun] at hopen ⊢
  obtain ⟨h1, h2⟩ := crun_other rnd n ops (cstep rnd c (.set n (.real x))).2 ho
  unfold contGet
  rw [if_neg hn.1, if_neg (by rw [hn.2.1]; simp), hopen, if_neg (by simp), h1, h2, hstep]
  simp only [hv]
  rw [if_neg hn.2.2]
  simp only [if_true]

/-- **C176, refuted for names of variables.** A number assigned to a name that is also a variable (of the frames, say) is accepted and kept, but reading the name gives the
variable. -/
theorem C176_shadowed_partial (rnd : ℝ → ℝ) (c : Cont) (hc : c.saved = none) (n : String) (hn : PublicName n) (hv : (c.file.vars n).isSome) (x : ℝ) :
    (cstep rnd c (.set n (.real x))).1 = .ok () ∧ contGet (cstep rnd c (.set n (.real x))).2 n = contGet c n ∧ ¬ (cstep rnd c (.set n (.real x))).2.Number n x := by
  have hstep : cstep rnd c (.set n (.real x)) = (.ok (), { c with attrs := fun s => if s = n then some (.real x) else c.attrs s }) := by
    simp only [cstep, contSet]
    rw [if_neg hn.1, if_neg (by rw [hn.2.1]; simp), if_neg (by simp [hc])]
    simp only [setNcAttr]
    rw [if_neg hn.2.2]
  obtain ⟨var, hvar⟩ := Option.isSome_iff_exists.1 hv
  have hg : ∀ a : String → Option Value, contGet { c with attrs := a } n = .ok (fetchWhole c.file var) := by
    intro a
    unfold contGet
    rw [if_neg hn.1, if_neg (by rw [hn.2.1]; simp)]
    simp only [hc, Option.isSome_none, Bool.false_eq_true, if_false, hvar]
  rw [hstep]
  refine ⟨rfl, (hg _).trans (hg c.attrs).symm, ?_⟩
  rintro ⟨v, h1, -⟩
  rw [hg] at h1
  unfold fetchWhole at h1
  split_ifs at h1 <;> cases h1

/-- **C176, refuted for frames.** Data of the whole file and of the frames are not kept apart: writing a number into frame `i` under the name of an array of the file
overwrites row `i` of that array, without complaint. -/
theorem C176_row_partial (rnd : ℝ → ℝ) (d : Bool) (nx ny i : ℕ) (hi : i < nx) (n : String) (hn : PublicName n) (g : List ℕ → ℝ) (x : ℝ) :
    (cstep rnd (crun rnd (createCont d 0) [.base (.shape [nx, ny] none), .set n (.arr [nx, ny] g)]) (.base (.write i n (.real x)))).1 = .ok ()
    ∧ (crun rnd (createCont d 0) [.base (.shape [nx, ny] none), .set n (.arr [nx, ny] g), .base (.write i n (.real x))]).Array n [nx, ny]
        (fun idx => if idx.head? = some i then x else g idx) := by
  have h1 : crun rnd (createCont d 0) [.base (.shape [nx, ny] none), .set n (.arr [nx, ny] g)]
      = { createCont d 0 with file := { create d 0 with
          shape := some [nx, ny], shape2 := some (nx, ny), defined := true
          vars := fun t => if t = n then some ⟨.f8, false, [nx, ny], fun _ idx => if inside [nx, ny] idx then some (g idx) else none⟩ else none } } := by
    simp only [crun, List.foldl_cons, List.foldl_nil]
    have ha : (cstep rnd (createCont d 0) (.base (.shape [nx, ny] none))).2
        = { createCont d 0 with file := { create d 0 with shape := some [nx, ny], shape2 := some (nx, ny), defined := true } } := by
      simp [cstep, createCont, step, setShape, create, isSingle, defineStructure]
    rw [ha]
    simp only [cstep, contSet]
    rw [if_neg hn.1, if_neg (by rw [hn.2.1]; simp)]
    simp only [createCont, Option.isSome_none, Bool.false_eq_true, if_false, ensureWhole, create, if_true, File.add, assignWhole, and_self]
    congr 2
    funext t
    split_ifs <;> rfl
  have h2 : cstep rnd (crun rnd (createCont d 0) [.base (.shape [nx, ny] none), .set n (.arr [nx, ny] g)]) (.base (.write i n (.real x)))
      = (.ok (), { createCont d 0 with file := { create d 0 with
          shape := some [nx, ny], shape2 := some (nx, ny), defined := true
          vars := fun t => if t = n then some ⟨.f8, false, [nx, ny], fun _ idx =>
            if idx.headD 0 = i ∧ idx ≠ [] ∧ inside [ny] idx.tail = true then some x else if inside [nx, ny] idx then some (g idx) else none⟩ else none } }) := by
    rw [h1]
    simp only [cstep, createCont, Option.isSome_none, Bool.false_eq_true, if_false, step, frame]
    rw [if_neg (by omega)]
    simp only [frameSet]
    rw [if_neg hn.1, if_neg (by rw [hn.2.1]; simp)]
    simp only [createIfMissing, if_true, assign]
    rw [if_neg (by omega)]
    simp only [Bool.false_eq_true, if_false, List.tail_cons, Value.entries, convert, reduceCtorEq, exists_false, and_false, List.headD_cons, Int.toNat_natCast]
    rw [if_neg (by omega)]
    simp only [entry, convert]
    congr 3
    funext t
    split_ifs <;> rfl
  refine ⟨by rw [h2], ?_⟩
  have h3 : crun rnd (createCont d 0) [.base (.shape [nx, ny] none), .set n (.arr [nx, ny] g), .base (.write i n (.real x))]
      = (cstep rnd (crun rnd (createCont d 0) [.base (.shape [nx, ny] none), .set n (.arr [nx, ny] g)]) (.base (.write i n (.real x)))).2 := rfl
  rw [h3, h2]
  refine ⟨fun idx => if idx.headD 0 = i ∧ idx ≠ [] ∧ inside [ny] idx.tail = true then some x else if inside [nx, ny] idx then some (g idx) else none,
    ?_, fun idx hidx => ?_⟩
  · unfold contGet
    rw [if_neg hn.1, if_neg (by rw [hn.2.1]; simp)]
    simp only [createCont, Option.isSome_none, Bool.false_eq_true, if_false, if_true, fetchWhole]
  · have h5 := (inside_iff' _ _).2 hidx
    match idx, h5 with
    | [], h => simp [inside] at h
    | a :: t, h =>
      simp only [inside, Bool.and_eq_true, decide_eq_true_eq] at h
      have ht : inside [ny] t = true := h.2
      have hi' : inside [nx, ny] (a :: t) = true := by simp only [inside, Bool.and_eq_true, decide_eq_true_eq]; exact h
      simp only [List.headD_cons, List.tail_cons, ht, List.head?_cons, Option.some.injEq, hi', if_true, ne_eq, reduceCtorEq, not_false_iff, and_true]
      split_ifs <;> rfl

/-- **C176, refuted for several degrees of freedom.** In a file with several degrees of freedom no array can be assigned to a new name: an array of the grid and one with
all degrees of freedom are both refused. -/
theorem C176_ndof_partial (rnd : ℝ → ℝ) (c : Cont) (hc : c.saved = none) (n : String) (hn : PublicName n) (hv : c.file.vars n = none) (ndof nx ny : ℕ)
    (hs : c.file.shape = some [ndof, nx, ny]) (s : List ℕ) (hs0 : s ≠ []) (g : List ℕ → ℝ) :
    (cstep rnd c (.set n (.arr s g))).1 ≠ .ok () := by
  obtain ⟨k, t, rfl⟩ := List.exists_cons_of_ne_nil hs0
  simp only [cstep, contSet]
  rw [if_neg hn.1, if_neg (by rw [hn.2.1]; simp), hc, if_neg (by simp)]
  simp only [ensureWhole, hv, hs]
  by_cases he : k :: t = [ndof, nx, ny]
  · rw [if_pos he, he]
    split
    · rename_i e _; simp
    · rename_i C hC
      split at hC
      · rename_i mx my _ _
        injection hC with hC
        rw [← hC]
        simp [assignWhole, File.add]
      · cases hC
  · rw [if_neg he]
    simp

/-- **C176, refuted for the names of methods.** What is stored under the name of a method is read as an item, not as an attribute. -/
theorem C176_method_partial (rnd : ℝ → ℝ) (c : Cont) (hc : c.saved = none) (n : String) (hm : n ∈ methodNames)
    (hv : c.file.vars n = none) (x : ℝ) :
    (cstep rnd c (.set n (.real x))).1 = .ok () ∧ (cstep rnd c (.set n (.real x))).2.Number n x ∧ contAttr (cstep rnd c (.set n (.real x))).2 n = .ok (.ofClass n) := by
  have hn : PublicName n ∧ n ∈ contNames := by
    simp only [methodNames, List.mem_cons, List.not_mem_nil, or_false] at hm
    rcases hm with rfl | rfl | rfl | rfl | rfl | rfl | rfl | rfl | rfl | rfl | rfl | rfl | rfl | rfl | rfl <;> exact ⟨by unfold PublicName; decide, by decide⟩
  have := C176_number_partial rnd c hc n hn.1 hv x [] (by simp) (by rw [← hc]; exact contSet_saved c n _)
  exact ⟨this.1, this.2, if_pos hn.2⟩

/-- For all other names, attributes and items are the same. -/
theorem C176_attribute (c : Cont) (n : String) (hm : n ∉ methodNames) : contAttr c n = contGet c n := by
  refine if_neg fun h => hm ?_
  simp only [contNames, methodNames, List.mem_cons, List.not_mem_nil, or_false] at h ⊢
  tauto

/-- Nontrivial use: an array in a single precision container, followed by a frame. -/
example (g : List ℕ → ℝ) (rnd : ℝ → ℝ) : PublicName "mask1"
    ∧ (cstep rnd (crun rnd (createCont false 0) [.base (.shape [2, 3] none)]) (.set "mask1" (.arr [2, 3] g))).1 = .ok ()
    ∧ (∀ op ∈ ([.base (.write 0 "gap" (.arr [2, 3] g)), .set "pi" (.real 3)] : List COp), ¬ Names "mask1" op) := by
  refine ⟨by unfold PublicName; decide, ?_, ?_⟩
  · have h : isPrivate "mask1" = false := by decide
    simp [crun, cstep, createCont, step, setShape, create, isSingle, defineStructure, contSet, h, ensureWhole, File.add, assignWhole]
  · intro op ho
    simp only [List.mem_cons, List.not_mem_nil, or_false] at ho
    rcases ho with rfl | rfl <;> simp [Names]

/-! ## C177: the elastic surface -/

/-- **C177.** An elastic surface that was accepted is read back exactly through the object that `get_elastic_surface` returns, whatever is done afterwards, except for
storing something else under that name or closing the container. -/
theorem C177_elastic (rnd : ℝ → ℝ) (c : Cont) (hx hy : ℕ) (h : ℕ → ℕ → ℝ) (hok : (cstep rnd c (.elastic hx hy h)).1 = .ok ()) (ops : List COp)
    (ho : ∀ op ∈ ops, ¬ Names "elastic_surface" op) (hopen : (crun rnd c (.elastic hx hy h :: ops)).saved = none) :
    ∃ v get, getElastic (crun rnd c (.elastic hx hy h :: ops)) = .ok v ∧ look (crun rnd c (.elastic hx hy h :: ops)) v = .ok (.data [hx, hy] get)
      ∧ ∀ a b, a < hx → b < hy → get [a, b] = some (h a b) := by
  have hrun : crun rnd c (.elastic hx hy h :: ops) = crun rnd (cstep rnd c (.elastic hx hy h)).2 ops := rfl
  rw [hrun] at hopen ⊢
  obtain ⟨hv, _⟩ := crun_other rnd "elastic_surface" ops (cstep rnd c (.elastic hx hy h)).2 ho
  have key : ∃ var, (cstep rnd c (.elastic hx hy h)).2.file.vars "elastic_surface" = some var ∧ var.framed = false ∧ var.dims = [hx, hy]
      ∧ var.data = fun _ idx => if inside [hx, hy] idx then some (h (idx.headD 0) (idx.tail.headD 0)) else none := by
    simp only [cstep, setElastic] at hok ⊢
    by_cases hc : c.saved.isSome = true
    · rw [if_pos hc] at hok; cases hok
    rw [if_neg hc] at hok ⊢
    split at hok
    · cases hok
    · rename_i C hC
      simp only [assignWhole] at hok ⊢
      cases hV : C.vars "elastic_surface" with
      | none => rw [hV] at hok; cases hok
      | some var =>
        rw [hV] at hok
        simp only at hok ⊢
        by_cases hd : var.framed = false ∧ var.dims = [hx, hy]
        · rw [if_pos hd]
          exact ⟨{ var with data := fun _ idx => if inside [hx, hy] idx then some (h (idx.headD 0) (idx.tail.headD 0)) else none }, by simp, hd.1, hd.2, rfl⟩
        · rw [if_neg hd] at hok; cases hok
  obtain ⟨var, h1, h2, h3, h4⟩ := key
  refine ⟨"elastic_surface", var.data 0, ?_, ?_, fun a b ha hb => ?_⟩
  · unfold getElastic
    rw [hopen, if_neg (by simp), hv, h1]
  · unfold look
    rw [hopen, if_neg (by simp), hv, h1]
    simp only [fetchWhole, h2, Bool.false_eq_true, if_false, h3]
  · rw [h4]
    simp [inside, ha, hb]

/-- **C177, refuted for snapshots.** Unlike the rigid surface, the elastic surface is not returned as it is at the time of the call: what `get_elastic_surface` returned
before shows the surface stored later. -/
theorem C177_snapshot_partial (rnd : ℝ → ℝ) (c : Cont) (hx hy : ℕ) (h : ℕ → ℕ → ℝ) (v : String) (hv : getElastic c = .ok v)
    (hok : (cstep rnd c (.elastic hx hy h)).1 = .ok ()) :
    ∃ get, look (cstep rnd c (.elastic hx hy h)).2 v = .ok (.data [hx, hy] get) ∧ ∀ a b, a < hx → b < hy → get [a, b] = some (h a b) := by
  have hs : c.saved = none := by
    cases hc : c.saved with
    | none => rfl
    | some p => unfold getElastic at hv; rw [hc] at hv; cases hv
  have hs' : (cstep rnd c (.elastic hx hy h)).2.saved = none := by
    simp only [cstep, setElastic]
    rw [hs, if_neg (by simp)]
    split <;> simp [hs]
  obtain ⟨w, get, h1, h2, h3⟩ := C177_elastic rnd c hx hy h hok [] (by simp) hs'
  refine ⟨get, ?_, h3⟩
  have hw : w = v := by
    unfold getElastic at hv h1
    rw [hs, if_neg (by simp)] at hv
    rw [show (crun rnd c [.elastic hx hy h]).saved = none from hs', if_neg (by simp)] at h1
    split at hv
    · cases hv
    · split at h1
      · cases h1
      · injection hv with hv; injection h1 with h1; rw [← hv, ← h1]
  rw [← hw]
  exact h2

example (h h' : ℕ → ℕ → ℝ) (rnd : ℝ → ℝ) : (cstep rnd (crun rnd (createCont false 0) [.base (.shape [2, 3] none)]) (.elastic 2 3 h)).1 = .ok ()
    ∧ (cstep rnd (crun rnd (createCont false 0) [.base (.shape [2, 3] none), .elastic 2 3 h]) (.elastic 2 3 h')).1 = .ok () := by
  constructor <;> simp [crun, cstep, createCont, step, setShape, create, isSingle, defineStructure, setElastic, File.add, assignWhole]

/-! ## C178: closing -/

/-- **C178.** What a container holds when it is closed stays in the file: no later call on the closed object changes it, closing again does nothing, … -/
theorem C178_kept (rnd : ℝ → ℝ) (c : Cont) (hc : c.saved = none) (ops : List COp) : (crun rnd (closeCont c) ops).saved = some (c.file, c.attrs) := by
  have h0 : (closeCont c).saved = some (c.file, c.attrs) := by unfold closeCont; rw [hc]
  generalize closeCont c = k at h0
  induction ops generalizing k with
  | nil => exact h0
  | cons op ops ih =>
    refine ih (cstep rnd k op).2 ?_
    cases op with
    | base op => exact h0
    | set n v => exact (contSet_saved k n v).trans h0
    | elastic hx hy h => simp only [cstep, setElastic]; rw [h0, if_pos (by simp)]; exact h0
    | close => simp only [cstep, closeCont, h0]

/-- … every call that reads or stores data raises, and never ends as if it had worked … -/
theorem C178_raises (rnd : ℝ → ℝ) (c : Cont) (hc : c.saved ≠ none) (n : String) (hn : PublicName n) :
    contGet c n = .error .attributeError ∧ (∀ v, (cstep rnd c (.set n v)).1 = .error .attributeError)
    ∧ (∀ i v, (cstep rnd c (.base (.write i n v))).1 = .error .attributeError)
    ∧ (∀ hx hy h, (cstep rnd c (.elastic hx hy h)).1 = .error .attributeError)
    ∧ (∀ hx hy h nd, (cstep rnd c (.base (.rigid hx hy h nd))).1 ≠ .ok ())
    ∧ (∀ s nd, (cstep rnd c (.base (.shape s nd))).1 ≠ .ok ())
    ∧ (∀ i nx ny g x0 y0, (cstep rnd c (.base (.grid i n nx ny g x0 y0))).1 ≠ .ok ())
    ∧ hasH c = .error .attributeError ∧ getElastic c = .error .attributeError ∧ contLen c = .error .attributeError := by
  have hs : c.saved.isSome = true := by
    cases h : c.saved with
    | none => exact absurd h hc
    | some _ => rfl
  have hd : ∀ s, (closedStep.closedShape c.file s).1 ≠ .ok () := by
    intro s
    unfold closedStep.closedShape
    cases defineStructure c.file s with
    | mk r C => cases r <;> simp
  have hp : isPrivate n = false := hn.2.1
  refine ⟨?_, fun v => ?_, fun i v => ?_, fun hx hy h => ?_, fun hx hy h nd => ?_, fun s nd => ?_, fun i nx ny g x0 y0 => ?_, if_pos hs, if_pos hs, if_pos hs⟩
  · unfold contGet
    rw [if_neg hn.1, if_neg (by simp [hp]), if_pos hs]
  · simp only [cstep, contSet]
    rw [if_neg hn.1, if_neg (by simp [hp]), if_pos hs]
  · simp only [cstep, hs, if_true, closedStep]
    split_ifs with h1 h2 h3
    · rfl
    · exact absurd h2 hn.1
    · rw [hp] at h3; cases h3
    · rfl
  · simp only [cstep, setElastic, hs, if_true]
  · simp only [cstep, hs, if_true, closedStep]
    exact hd _
  · simp only [cstep, hs, if_true, closedStep]
    exact hd _
  · simp only [cstep, hs, if_true, closedStep]
    split_ifs
    · simp
    · cases c.file.shape <;> simp

/-- … and the file opened again shows, whatever was tried on the closed object, the frames, variables and attributes there were, in a container of the grid. -/
theorem C178_reopen (rnd : ℝ → ℝ) (c c' : Cont) (hc : c.saved = none) (ops : List COp) (d : Bool) (fr : ℤ)
    (h : reopenCont (crun rnd (closeCont c) ops) d fr = .ok c') :
    (∀ n, contGet c' n = contGet c n) ∧ (∀ F n, frameGet c'.file F n = frameGet c.file F n) ∧ contLen c' = contLen c ∧ getRigid c'.file = getRigid c.file := by
  unfold reopenCont at h
  rw [C178_kept rnd c hc ops] at h
  simp only [reopen] at h
  cases hs : c.file.shape2 with
  | none => rw [hs] at h; cases h
  | some p =>
    rw [hs] at h
    simp only at h
    by_cases hd : c.file.defined = true
    · rw [if_pos hd] at h
      injection h with h
      subst h
      refine ⟨fun n => ?_, fun F n => rfl, ?_, rfl⟩
      · unfold contGet
        simp only [hc]
        rfl
      · unfold contLen
        simp only [hc, hd]
    · rw [if_neg hd] at h; cases h

/-- **C178, refuted for the size.** The size that a closed container reports is the last one it was asked to take, although the attempt raised. -/
theorem C178_size_partial (rnd : ℝ → ℝ) (c : Cont) (nx ny : ℕ) :
    (cstep rnd (closeCont c) (.base (.shape [nx, ny] none))).1 ≠ .ok () ∧ getSize (cstep rnd (closeCont c) (.base (.shape [nx, ny] none))).2 = .ok [nx, ny] := by
  have hs : (closeCont c).saved.isSome = true := by
    unfold closeCont
    cases h : c.saved <;> simp [h]
  simp [cstep, hs, closedStep, isSingle, closedStep.closedShape, defineStructure, getSize]

example (rnd : ℝ → ℝ) : (crun rnd (createCont true 0) [.base (.shape [2, 2] none)]).saved = none
    ∧ ∃ c', reopenCont (crun rnd (closeCont (crun rnd (createCont true 0) [.base (.shape [2, 2] none)])) [.close, .set "x" (.real 1)]) false 0 = .ok c' := by
  refine ⟨rfl, ?_⟩
  unfold reopenCont
  rw [C178_kept rnd _ rfl]
  exact ⟨_, rfl⟩

end CM.NetCDF
