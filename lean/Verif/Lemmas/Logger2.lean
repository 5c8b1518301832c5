import Verif.Lemmas.Logger
import Std.Data.String.ToNat
import Mathlib.Data.Finset.Card
/-!
# Lemmas on the logger: late attachment and backup files
-/
namespace CM.Log

/-! ## Late attachment -/

/-- The logger that had file `i` from the start, given the one that has only a buffer. -/
def attach (i : ℕ) (S : State) : State :=
  ⟨{ S.log with logfile := some i, buffer := [] },
   { S.world with data := fun j => if j = i then S.world.data i ++ S.log.buffer else S.world.data j }⟩

/-- A logger without file. -/
def Bare (S : State) : Prop := S.log.logfile = none ∧ S.log.logfn = none

lemma replay_file (i : ℕ) (l : List Text) : ∀ (S : State), S.log.logfile = some i →
    replay S l = ⟨S.log, { S.world with data := fun j => if j = i then S.world.data i ++ l else S.world.data j }⟩ := by
  induction l with
  | nil =>
    intro S _
    have : (fun j => if j = i then S.world.data i ++ ([] : List Text) else S.world.data j) = S.world.data := by
      funext j; by_cases h : j = i <;> simp [h]
    rw [this]; rfl
  | cons s l ih =>
    intro S hS
    have hp : print S s = ⟨S.log, S.world.write i s⟩ := by unfold print; simp [hS]
    unfold replay
    rw [hp, ih _ (by exact hS)]
    simp only [World.write, if_true]
    congr 2
    funext j
    by_cases h : j = i
    · simp [h]
    · simp [h]

lemma setLogfile_handle (S : State) (i : ℕ) : setLogfile S (.handle i) = attach i S := by
  unfold setLogfile
  simp only [Option.isSome_some, if_true]
  rw [replay_file i _ _ rfl]
  rfl

lemma print_attach (i : ℕ) (S : State) (hS : Bare S) (s : Text) (e : Option ℕ) (he : ∀ f, e = some f → f ≠ i) :
    print (attach i S) s e = attach i (print S s e) ∧ Bare (print S s e) := by
  obtain ⟨h1, h2⟩ := hS
  cases e with
  | none =>
    unfold print attach
    simp only [h1]
    refine ⟨?_, rfl, h2⟩
    simp only [World.write]
    congr 2
    funext j
    by_cases h : j = i <;> simp [h]
  | some f =>
    have hf := he f rfl
    unfold print attach
    simp only [h1, Option.some.injEq, if_neg (Ne.symm hf), reduceCtorEq, if_false]
    refine ⟨?_, rfl, h2⟩
    simp only [World.write]
    congr 2
    funext j
    by_cases h : j = i
    · simp [h, Ne.symm hf]
    · by_cases h' : j = f <;> simp [h, h', hf]

lemma bare_ready (S : State) (hS : Bare S) : Ready S := fun _ => hS.2

lemma attach_ready (i : ℕ) (S : State) : Ready (attach i S) := fun h => by simp [attach] at h

/-- Calls other than `set_logfile`. -/
def Op.NotSet : Op → Prop
  | .setLogfile _ => False
  | _ => True

/-- Calls other than `warn`. -/
def Op.NotWarn : Op → Prop
  | .warn _ _ => False
  | _ => True

lemma printRecord_attach (i : ℕ) (S : State) (hS : Bare S) (h : List Text) (v : List Val) :
    printRecord (attach i S) h v = ((printRecord S h v).1, attach i (printRecord S h v).2) ∧ Bare (printRecord S h v).2 := by
  unfold printRecord
  have ha : (⟨{ (attach i S).log with sepcounter := (attach i S).log.sepcounter - 1 }, (attach i S).world⟩ : State)
      = attach i ⟨{ S.log with sepcounter := S.log.sepcounter - 1 }, S.world⟩ := rfl
  rw [ha]
  have hb : Bare ⟨{ S.log with sepcounter := S.log.sepcounter - 1 }, S.world⟩ := hS
  generalize (⟨{ S.log with sepcounter := S.log.sepcounter - 1 }, S.world⟩ : State) = T at hb
  have hH : (match printHeader T h v with
      | .error e => printHeader (attach i T) h v = .error e
      | .ok U => printHeader (attach i T) h v = .ok (attach i U) ∧ Bare U) := by
    unfold printHeader
    have hs : (attach i T).log.sepcounter = T.log.sepcounter := rfl
    rw [hs]
    by_cases hle : T.log.sepcounter ≤ 0
    · rw [if_pos hle, if_pos hle]
      cases headerLine h v with
      | error e => rfl
      | ok H =>
        obtain ⟨p1, p2⟩ := print_attach i T hb H none (by simp)
        dsimp only
        rw [p1]
        exact ⟨rfl, p2⟩
    · rw [if_neg hle, if_neg hle]
      exact ⟨rfl, hb⟩
  cases hp : printHeader T h v with
  | error e =>
    rw [hp] at hH
    dsimp only at hH ⊢
    rw [hH]
    exact ⟨rfl, hb⟩
  | ok U =>
    rw [hp] at hH
    obtain ⟨h1, h2⟩ := hH
    dsimp only
    rw [h1]
    dsimp only
    cases recordLine v with
    | error e => exact ⟨rfl, h2⟩
    | ok r =>
      obtain ⟨q1, q2⟩ := print_attach i U h2 r none (by simp)
      dsimp only
      rw [q1]
      exact ⟨rfl, q2⟩

lemma st_attach (i : ℕ) (S : State) (hS : Bare S) (h : List Text) (v : List Val) (f : Bool) :
    st (attach i S) h v f = ((st S h v f).1, attach i (st S h v f).2) ∧ Bare (st S h v f).2 := by
  unfold st
  by_cases hl : h.length ≠ v.length
  · rw [if_pos hl, if_pos hl]; exact ⟨rfl, hS⟩
  · rw [if_neg hl, if_neg hl]
    simp only [openLogfile_ready _ (attach_ready i S), openLogfile_ready _ (bare_ready S hS)]
    have c1 : (attach i S).log.outevery = S.log.outevery := rfl
    have c2 : (attach i S).log.outcounter = S.log.outcounter := rfl
    rw [c1, c2]
    split_ifs
    · exact printRecord_attach i S hS h v
    · exact printRecord_attach i ⟨{ S.log with outcounter := S.log.outevery }, S.world⟩ hS h v
    · exact printRecord_attach i ⟨{ S.log with outcounter := S.log.outcounter - 1 }, S.world⟩ hS h v
    · exact ⟨rfl, hS⟩

lemma step_attach (i : ℕ) (S : State) (hS : Bare S) (op : Op) (h1 : op.NotSet) (h2 : i = 0 → op.NotWarn) :
    (step (attach i S) op).1 = (step S op).1 ∧ (step (attach i S) op).2 = attach i (step S op).2 ∧ Bare (step S op).2 := by
  cases op with
  | pr c t =>
    obtain ⟨p1, p2⟩ := print_attach i S hS (commentLine c t) none (by simp)
    simp only [step, pr, openLogfile_ready _ (attach_ready i S), openLogfile_ready _ (bare_ready S hS)]
    exact ⟨trivial, p1, p2⟩
  | warn c t =>
    have hi : i ≠ 0 := fun h => h2 h
    obtain ⟨p1, p2⟩ := print_attach i S hS (commentLine c ("Warning: ".toList ++ t)) (some 0) (by rintro f hf; cases hf; exact hi.symm)
    simp only [step, warn, pr, openLogfile_ready _ (attach_ready i S), openLogfile_ready _ (bare_ready S hS)]
    exact ⟨trivial, p1, p2⟩
  | st h v f =>
    obtain ⟨s1, s2⟩ := st_attach i S hS h v f
    simp only [step]
    rw [s1]
    exact ⟨rfl, rfl, s2⟩
  | setLogfile a => exact absurd h1 (by simp [Op.NotSet])
  | setOutevery n => exact ⟨rfl, rfl, hS⟩
  | iterationFinished =>
    obtain ⟨a, b⟩ := hS
    refine ⟨rfl, ?_, ?_, b⟩
    · simp [step, iterationFinished, attach, b]
    · simp [step, iterationFinished, b, a]

lemma run_attach (i : ℕ) (ops : List Op) : ∀ (S : State), Bare S → (∀ op ∈ ops, op.NotSet) → (i = 0 → ∀ op ∈ ops, op.NotWarn) →
    run (attach i S) ops = attach i (run S ops) ∧ Bare (run S ops) := by
  induction ops with
  | nil => intro S hS _ _; exact ⟨rfl, hS⟩
  | cons op ops ih =>
    intro S hS h1 h2
    obtain ⟨_, s2, s3⟩ := step_attach i S hS op (h1 op (by simp)) (fun h => h2 h op (by simp))
    have := ih (step S op).2 s3 (fun o ho => h1 o (by simp [ho])) (fun h o ho => h2 h o (by simp [ho]))
    simp only [run, List.foldl_cons] at this ⊢
    rw [s2]
    exact this

/-! ## A logger without file touches only standard output -/

/-- Appending lines to standard output. -/
def stdout (W : World) (l : List Text) : World := { W with data := fun j => if j = 0 then W.data j ++ l else W.data j }

lemma stdout_nil (W : World) : stdout W [] = W := by
  unfold stdout
  have : (fun j => if j = 0 then W.data j ++ ([] : List Text) else W.data j) = W.data := by funext j; simp
  rw [this]

lemma stdout_append (W : World) (a b : List Text) : stdout (stdout W a) b = stdout W (a ++ b) := by
  unfold stdout
  congr 1
  funext j
  by_cases h : j = 0 <;> simp [h]

lemma printRecord_bare (L : Logger) (hL : L.logfile = none) (h : List Text) (v : List Val) :
    ∃ (r : Except PyErr Unit) (L' : Logger), ∀ W : World, printRecord ⟨L, W⟩ h v = (r, ⟨L', W⟩) := by
  unfold printRecord printHeader print
  dsimp only
  rw [hL]
  dsimp only
  by_cases hle : L.sepcounter - 1 ≤ 0
  · simp only [if_pos hle]
    cases headerLine h v with
    | error e => exact ⟨_, _, fun W => rfl⟩
    | ok H =>
      cases recordLine v with
      | error e => dsimp only; exact ⟨_, _, fun W => rfl⟩
      | ok r => dsimp only; exact ⟨_, _, fun W => rfl⟩
  · simp only [if_neg hle]
    cases recordLine v with
    | error e => exact ⟨_, _, fun W => rfl⟩
    | ok r => exact ⟨_, _, fun W => rfl⟩

lemma step_bare (L : Logger) (h1 : L.logfile = none) (h2 : L.logfn = none) (op : Op) (hop : op.NotSet) :
    ∃ (r : Except PyErr Unit) (L' : Logger) (l : List Text), (L'.logfile = none ∧ L'.logfn = none) ∧ (∀ W : World, step ⟨L, W⟩ op = (r, ⟨L', stdout W l⟩)) := by
  have hr : ∀ W, openLogfile ⟨L, W⟩ = ⟨L, W⟩ := fun W => openLogfile_ready _ (fun _ => h2)
  have hbare : ∀ W, Bare (step ⟨L, W⟩ op).2 := fun W => (step_attach 1 ⟨L, W⟩ ⟨h1, h2⟩ op hop (by simp)).2.2
  suffices h : ∃ (r : Except PyErr Unit) (L' : Logger) (l : List Text), ∀ W : World, step ⟨L, W⟩ op = (r, ⟨L', stdout W l⟩) by
    obtain ⟨r, L', l, h⟩ := h
    refine ⟨r, L', l, ?_, h⟩
    have := hbare ⟨[], fun _ => [], 0⟩
    rw [h] at this
    exact this
  cases op with
  | pr c t =>
    refine ⟨.ok (), { L with buffer := L.buffer ++ [commentLine c t] }, [], fun W => ?_⟩
    simp only [step, pr, hr, print, h1, stdout_nil]
  | warn c t =>
    refine ⟨.ok (), { L with buffer := L.buffer ++ [commentLine c ("Warning: ".toList ++ t)] }, [commentLine c ("Warning: ".toList ++ t)], fun W => ?_⟩
    simp only [step, warn, pr, hr, print, h1, reduceCtorEq, if_false]
    rfl
  | st h v f =>
    simp only [step, st, hr]
    by_cases hl : h.length ≠ v.length
    · simp only [if_pos hl]
      exact ⟨_, _, [], fun W => by rw [stdout_nil]⟩
    · simp only [if_neg hl]
      by_cases ho : L.outevery = 1
      · simp only [if_pos ho]
        obtain ⟨r, L', hp⟩ := printRecord_bare L h1 h v
        exact ⟨r, L', [], fun W => by rw [stdout_nil]; exact hp W⟩
      · simp only [if_neg ho]
        by_cases hle : L.outcounter - 1 ≤ 0
        · simp only [if_pos hle]
          obtain ⟨r, L', hp⟩ := printRecord_bare { L with outcounter := L.outevery } h1 h v
          exact ⟨r, L', [], fun W => by rw [stdout_nil]; exact hp W⟩
        · simp only [if_neg hle]
          cases f with
          | true =>
            simp only [if_true]
            obtain ⟨r, L', hp⟩ := printRecord_bare { L with outcounter := L.outcounter - 1 } h1 h v
            exact ⟨r, L', [], fun W => by rw [stdout_nil]; exact hp W⟩
          | false =>
            simp only [Bool.false_eq_true, if_false]
            exact ⟨_, _, [], fun W => by rw [stdout_nil]⟩
  | setLogfile a => exact absurd hop (by simp [Op.NotSet])
  | setOutevery n => exact ⟨.ok (), (setOutevery ⟨L, ⟨[], fun _ => [], 0⟩⟩ n).log, [], fun W => by rw [stdout_nil]; rfl⟩
  | iterationFinished => exact ⟨.ok (), (iterationFinished ⟨L, ⟨[], fun _ => [], 0⟩⟩).log, [], fun W => by rw [stdout_nil]; rfl⟩

lemma run_bare (ops : List Op) : ∀ (L : Logger), L.logfile = none → L.logfn = none → (∀ op ∈ ops, op.NotSet) →
    ∃ (L' : Logger) (l : List Text), ∀ W : World, run ⟨L, W⟩ ops = ⟨L', stdout W l⟩ := by
  induction ops with
  | nil => intro L _ _ _; exact ⟨L, [], fun W => by rw [stdout_nil]; rfl⟩
  | cons op ops ih =>
    intro L h1 h2 hops
    obtain ⟨r, L', l, ⟨g1, g2⟩, hs⟩ := step_bare L h1 h2 op (hops op (by simp))
    obtain ⟨L'', l', hr⟩ := ih L' g1 g2 (fun o ho => hops o (by simp [ho]))
    refine ⟨L'', l ++ l', fun W => ?_⟩
    simp only [run, List.foldl_cons] at hr ⊢
    rw [hs, hr, stdout_append]

lemma lookup_mem (W : World) (fn : String) (i : ℕ) (h : W.lookup fn = some i) : (fn, i) ∈ W.files := by
  unfold World.lookup at h
  cases hf : W.files.find? (fun p => p.1 = fn) with
  | none => rw [hf] at h; simp at h
  | some p =>
    rw [hf] at h
    have h1 := List.find?_some hf
    have h2 := List.mem_of_find?_eq_some hf
    simp only [decide_eq_true_eq] at h1
    simp only [Option.map_some, Option.some.injEq] at h
    rw [← h1, ← h]
    exact h2

lemma openW_stdout (W : World) (hW : W.Ok) (hn : 0 < W.next) (fn : String) (l : List Text) :
    (stdout W l).openW fn = ((W.openW fn).1, stdout (W.openW fn).2 l) ∧ (W.openW fn).1 ≠ 0 := by
  have hl : (stdout W l).lookup fn = W.lookup fn := rfl
  unfold World.openW
  rw [hl]
  cases hf : W.lookup fn with
  | none =>
    dsimp only [stdout]
    refine ⟨?_, by omega⟩
    congr 2
    funext j
    by_cases h : j = W.next
    · have : j ≠ 0 := by omega
      simp [h, show W.next ≠ 0 by omega]
    · simp [h]
  | some i =>
    have hi : 0 < i := (hW.2.2 _ (lookup_mem W fn i hf)).1
    dsimp only [stdout]
    refine ⟨?_, by omega⟩
    congr 2
    funext j
    by_cases h : j = i
    · simp [h, show i ≠ 0 by omega]
    · simp [h]

lemma setLogfile_plain (S : State) (fn : String) :
    setLogfile S (.plain fn) = attach (S.world.openW fn).1 ⟨S.log, (S.world.openW fn).2⟩ := by
  rw [← setLogfile_handle]
  rfl

/-! ## Backup files -/

lemma repr_backup_inj (fn : String) (i j : ℕ) (h : backupName fn i = backupName fn j) : i = j := by
  unfold backupName at h
  have h' := congrArg String.toList h
  simp only [String.toList_append] at h'
  have h2 := List.append_cancel_right h'
  have h3 := List.append_cancel_left h2
  exact Nat.repr_injective (String.toList_inj.1 h3)

lemma freeBackup_spec (W : World) (fn : String) (fuel : ℕ) : ∀ i, (∀ j, i ≤ j → j < freeBackup W fn fuel i → W.hasFile (backupName fn j) = true)
    ∧ i ≤ freeBackup W fn fuel i
    ∧ (W.hasFile (backupName fn (freeBackup W fn fuel i)) = false ∨ freeBackup W fn fuel i = i + fuel) := by
  induction fuel with
  | zero => intro i; exact ⟨fun j h1 h2 => absurd h2 (by simp only [freeBackup]; omega), le_rfl, Or.inr rfl⟩
  | succ fuel ih =>
    intro i
    unfold freeBackup
    cases hi : W.hasFile (backupName fn i) with
    | true =>
      simp only [if_true]
      obtain ⟨h1, h2, h3⟩ := ih (i + 1)
      refine ⟨fun j hj hj' => ?_, by omega, ?_⟩
      · rcases Nat.eq_or_lt_of_le hj with h | h
        · rw [← h]; exact hi
        · exact h1 j h hj'
      · rcases h3 with h | h
        · exact Or.inl h
        · exact Or.inr (by omega)
    | false =>
      simp only [Bool.false_eq_true, if_false]
      exact ⟨fun j h1 h2 => absurd h2 (by omega), le_rfl, Or.inl hi⟩

lemma hasFile_iff (W : World) (fn : String) : W.hasFile fn = true ↔ fn ∈ W.files.map Prod.fst := by
  unfold World.hasFile World.lookup
  rw [Option.isSome_map, List.find?_isSome]
  simp only [List.mem_map, decide_eq_true_eq]

/-- The first free backup name. -/
lemma freeBackup_least (W : World) (fn : String) :
    W.hasFile (backupName fn (freeBackup W fn (W.files.length + 1) 0)) = false
    ∧ ∀ j < freeBackup W fn (W.files.length + 1) 0, W.hasFile (backupName fn j) = true := by
  obtain ⟨h1, _, h3⟩ := freeBackup_spec W fn (W.files.length + 1) 0
  refine ⟨?_, fun j hj => h1 j (Nat.zero_le _) hj⟩
  rcases h3 with h | h
  · exact h
  · exfalso
    rw [Nat.zero_add] at h
    have hsub : (Finset.range (W.files.length + 1)).image (backupName fn) ⊆ (W.files.map Prod.fst).toFinset := by
      intro x hx
      obtain ⟨j, hj, rfl⟩ := Finset.mem_image.1 hx
      rw [List.mem_toFinset, ← hasFile_iff]
      exact h1 j (Nat.zero_le _) (by rw [h]; exact Finset.mem_range.1 hj)
    have hc := Finset.card_le_card hsub
    rw [Finset.card_image_of_injective _ (fun i j => repr_backup_inj fn i j), Finset.card_range] at hc
    have := (W.files.map Prod.fst).toFinset_card_le
    rw [List.length_map] at this
    omega

lemma lookup_iff (W : World) (hW : W.Ok) (fn : String) (i : ℕ) : W.lookup fn = some i ↔ (fn, i) ∈ W.files := by
  refine ⟨lookup_mem W fn i, fun h => ?_⟩
  have hh : W.hasFile fn = true := (hasFile_iff W fn).2 (List.mem_map.2 ⟨_, h, rfl⟩)
  obtain ⟨j, hj⟩ := Option.isSome_iff_exists.1 hh
  have hm := lookup_mem W fn j hj
  have := List.inj_on_of_nodup_map hW.1 h hm rfl
  have e : i = j := (Prod.ext_iff.1 this).2
  rw [hj, e]

lemma lookup_none (W : World) (fn : String) : W.lookup fn = none ↔ fn ∉ W.files.map Prod.fst := by
  rw [← hasFile_iff]
  unfold World.hasFile
  cases W.lookup fn <;> simp

lemma rename_ok (W : World) (hW : W.Ok) (a b : String) (hb : W.hasFile b = false) : (W.rename a b).Ok := by
  obtain ⟨h1, h2, h3⟩ := hW
  have hb' : b ∉ W.files.map Prod.fst := by rw [← hasFile_iff, hb]; simp
  have hfst : ((W.rename a b).files.map Prod.fst) = (W.files.map Prod.fst).map (fun s => if s = a then b else s) := by
    simp only [World.rename, List.map_map]
    apply List.map_congr_left
    intro p _
    simp only [Function.comp]
    split_ifs <;> rfl
  have hsnd : ((W.rename a b).files.map Prod.snd) = W.files.map Prod.snd := by
    simp only [World.rename, List.map_map]
    apply List.map_congr_left
    intro p _
    simp only [Function.comp]
    split_ifs <;> rfl
  refine ⟨?_, ?_, ?_⟩
  · rw [hfst]
    refine List.Nodup.map_on ?_ h1
    intro x hx y hy hxy
    by_cases hxa : x = a <;> by_cases hya : y = a
    · rw [hxa, hya]
    · rw [if_pos hxa, if_neg hya] at hxy
      exact absurd (hxy ▸ hy) hb'
    · rw [if_neg hxa, if_pos hya] at hxy
      exact absurd (hxy ▸ hx) hb'
    · rwa [if_neg hxa, if_neg hya] at hxy
  · rw [hsnd]; exact h2
  · intro p hp
    have : p.2 ∈ W.files.map Prod.snd := by rw [← hsnd]; exact List.mem_map.2 ⟨p, hp, rfl⟩
    obtain ⟨p', hp', e⟩ := List.mem_map.1 this
    have := h3 p' hp'
    rw [e] at this
    exact this

lemma openW_new (W : World) (hW : W.Ok) (hn : 0 < W.next) (fn : String) (h : fn ∉ W.files.map Prod.fst) :
    W.openW fn = (W.next, ⟨W.files ++ [(fn, W.next)], fun j => if j = W.next then [] else W.data j, W.next + 1⟩) ∧ (W.openW fn).2.Ok := by
  have hl := (lookup_none W fn).2 h
  have he : W.openW fn = (W.next, ⟨W.files ++ [(fn, W.next)], fun j => if j = W.next then [] else W.data j, W.next + 1⟩) := by
    unfold World.openW; rw [hl]
  refine ⟨he, ?_⟩
  rw [he]
  obtain ⟨h1, h2, h3⟩ := hW
  refine ⟨?_, ?_, ?_⟩
  · simp only [List.map_append, List.map_cons, List.map_nil]
    rw [List.nodup_append]
    refine ⟨h1, by simp, ?_⟩
    intro a ha b hb e
    rw [List.mem_singleton] at hb
    exact h (by rw [← hb, ← e]; exact ha)
  · simp only [List.map_append, List.map_cons, List.map_nil]
    rw [List.nodup_append]
    refine ⟨h2, by simp, ?_⟩
    intro a ha b hb e
    rw [List.mem_singleton] at hb
    obtain ⟨p, hp, e'⟩ := List.mem_map.1 ha
    have := (h3 p hp).2
    omega
  · intro p hp
    rcases List.mem_append.1 hp with hp | hp
    · have := h3 p hp
      exact ⟨this.1, by show p.2 < W.next + 1; omega⟩
    · rw [List.mem_singleton] at hp
      rw [hp]
      exact ⟨hn, Nat.lt_succ_self _⟩

/-- What survives: no file loses its last name, and contents only grow. -/
def Keeps (W W' : World) : Prop :=
  W'.Ok ∧ W.next ≤ W'.next ∧ (∀ p ∈ W.files, ∃ name, (name, p.2) ∈ W'.files) ∧ ∀ i < W.next, W.data i <+: W'.data i

lemma Keeps.refl {W : World} (h : W.Ok) : Keeps W W := ⟨h, le_rfl, fun p hp => ⟨p.1, hp⟩, fun _ _ => List.prefix_refl _⟩

lemma Keeps.trans {W W' W'' : World} (h : Keeps W W') (h' : Keeps W' W'') : Keeps W W'' := by
  refine ⟨h'.1, h.2.1.trans h'.2.1, fun p hp => ?_, fun i hi => ?_⟩
  · obtain ⟨n, hn⟩ := h.2.2.1 p hp
    obtain ⟨n', hn'⟩ := h'.2.2.1 _ hn
    exact ⟨n', hn'⟩
  · exact (h.2.2.2 i hi).trans (h'.2.2.2 i (lt_of_lt_of_le hi h.2.1))

lemma write_keeps (W : World) (hW : W.Ok) (i : ℕ) (s : Text) : Keeps W (W.write i s) := by
  refine ⟨hW, le_rfl, fun p hp => ⟨p.1, hp⟩, fun j _ => ?_⟩
  simp only [World.write]
  split_ifs
  · exact List.prefix_append _ _
  · exact List.prefix_refl _

lemma print_keeps (S : State) (hW : S.world.Ok) (s : Text) (e : Option ℕ) : Keeps S.world (print S s e).world := by
  cases hf : S.log.logfile with
  | none =>
    cases e with
    | none => simp only [print, hf]; exact Keeps.refl hW
    | some f => simp only [print, hf, reduceCtorEq, if_false]; exact write_keeps _ hW _ _
  | some i =>
    cases e with
    | none => simp only [print, hf]; exact write_keeps _ hW _ _
    | some f =>
      simp only [print, hf]
      split_ifs
      · exact write_keeps _ hW _ _
      · exact (write_keeps _ hW f s).trans (write_keeps _ (write_keeps _ hW f s).1 i s)

/-- The file system just before the new log file is made. -/
def moved (W : World) (fn : String) : World :=
  if W.hasFile fn then W.rename fn (backupName fn (freeBackup W fn (W.files.length + 1) 0)) else W

lemma openLogfile_pending (S : State) (t : Template) (h1 : S.log.logfile = none) (h2 : S.log.logfn = some t) :
    openLogfile S = ⟨{ S.log with outcounter := S.log.outevery, sepcounter := 0, logfile := some ((moved S.world (t.name S.log.it)).openW (t.name S.log.it)).1 },
      ((moved S.world (t.name S.log.it)).openW (t.name S.log.it)).2⟩ := by
  unfold openLogfile moved
  rw [h1, h2]

lemma moved_spec (W : World) (hW : W.Ok) (fn : String) : (moved W fn).Ok ∧ (moved W fn).next = W.next ∧ (moved W fn).data = W.data
    ∧ fn ∉ (moved W fn).files.map Prod.fst ∧ (∀ p ∈ W.files, ∃ name, (name, p.2) ∈ (moved W fn).files) := by
  unfold moved
  split_ifs with h
  · obtain ⟨b1, _⟩ := freeBackup_least W fn
    refine ⟨rename_ok W hW fn _ b1, rfl, rfl, ?_, ?_⟩
    · intro hm
      obtain ⟨p, hp, e⟩ := List.mem_map.1 hm
      simp only [World.rename, List.mem_map] at hp
      obtain ⟨p', hp', e'⟩ := hp
      by_cases hfn : p'.1 = fn
      · rw [if_pos hfn] at e'
        rw [← e'] at e
        simp only at e
        rw [e, h] at b1
        exact absurd b1 (by simp)
      · rw [if_neg hfn] at e'
        rw [e'] at hfn
        exact hfn e
    · intro p hp
      by_cases hfn : p.1 = fn
      · refine ⟨backupName fn (freeBackup W fn (W.files.length + 1) 0), ?_⟩
        simp only [World.rename, List.mem_map]
        exact ⟨p, hp, by rw [if_pos hfn]⟩
      · refine ⟨p.1, ?_⟩
        simp only [World.rename, List.mem_map]
        exact ⟨p, hp, by rw [if_neg hfn]⟩
  · exact ⟨hW, rfl, rfl, fun hm => h ((hasFile_iff W fn).2 hm), fun p hp => ⟨p.1, hp⟩⟩

lemma openLogfile_keeps (S : State) (hW : S.world.Ok) (hn : 0 < S.world.next) : Keeps S.world (openLogfile S).world := by
  cases h1 : S.log.logfile with
  | some i => rw [openLogfile_ready S (fun h => by rw [h1] at h; simp at h)]; exact Keeps.refl hW
  | none =>
    cases h2 : S.log.logfn with
    | none => rw [openLogfile_ready S (fun _ => h2)]; exact Keeps.refl hW
    | some t =>
      rw [openLogfile_pending S t h1 h2]
      obtain ⟨m1, m2, m3, m4, m5⟩ := moved_spec S.world hW (t.name S.log.it)
      obtain ⟨o1, o2⟩ := openW_new (moved S.world (t.name S.log.it)) m1 (by omega) _ m4
      refine ⟨o2, ?_, ?_, ?_⟩
      · rw [o1]; show S.world.next ≤ (moved _ _).next + 1; omega
      · intro p hp
        obtain ⟨n, hn⟩ := m5 p hp
        refine ⟨n, ?_⟩
        rw [o1]
        exact List.mem_append_left _ hn
      · intro i hi
        rw [o1]
        simp only [m3]
        rw [if_neg (by omega)]

/-- Calls that do not name a file to be overwritten. -/
def Op.NotPlain : Op → Prop
  | .setLogfile (.plain _) => False
  | _ => True

lemma printRecord_keeps (S : State) (hW : S.world.Ok) (h : List Text) (v : List Val) : Keeps S.world (printRecord S h v).2.world := by
  unfold printRecord printHeader
  have hk := fun s => print_keeps ⟨{ S.log with sepcounter := S.log.sepcounter - 1 }, S.world⟩ hW s none
  split_ifs with hle
  · cases headerLine h v with
    | error e => exact Keeps.refl hW
    | ok H =>
      dsimp only
      cases recordLine v with
      | error e => exact hk H
      | ok r =>
        refine (hk H).trans ?_
        exact print_keeps (⟨{ (print _ H).log with sepcounter := (print _ H).log.sepevery }, (print _ H).world⟩ : State) (hk H).1 r none
  · dsimp only
    cases recordLine v with
    | error e => exact Keeps.refl hW
    | ok r => exact hk r

lemma replay_keeps (l : List Text) : ∀ S : State, S.world.Ok → Keeps S.world (replay S l).world := by
  induction l with
  | nil => intro S hW; exact Keeps.refl hW
  | cons s l ih =>
    intro S hW
    unfold replay
    have h := print_keeps S hW s none
    exact h.trans (ih _ h.1)

lemma step_keeps (S : State) (hW : S.world.Ok) (hn : 0 < S.world.next) (op : Op) (hop : op.NotPlain) : Keeps S.world (step S op).2.world := by
  have hk := openLogfile_keeps S hW hn
  cases op with
  | pr c t => exact hk.trans (print_keeps _ hk.1 _ _)
  | warn c t => exact hk.trans (print_keeps _ hk.1 _ _)
  | st h v f =>
    simp only [step, st]
    by_cases hl : h.length ≠ v.length
    · rw [if_pos hl]
      exact Keeps.refl hW
    rw [if_neg hl]
    generalize openLogfile S = T at hk
    split_ifs
    · exact hk.trans (printRecord_keeps _ hk.1 _ _)
    · exact hk.trans (printRecord_keeps ⟨{ T.log with outcounter := T.log.outevery }, T.world⟩ hk.1 _ _)
    · exact hk.trans (printRecord_keeps ⟨{ T.log with outcounter := T.log.outcounter - 1 }, T.world⟩ hk.1 _ _)
    · exact hk
  | setLogfile a =>
    simp only [step, setLogfile]
    cases a with
    | none => simp only [Option.isSome_none, Bool.false_eq_true, if_false]; exact Keeps.refl hW
    | handle i => simp only [Option.isSome_some, if_true]; exact replay_keeps _ ⟨_, _⟩ hW
    | plain fn => exact absurd hop (by simp [Op.NotPlain])
    | template t =>
      have hk' := openLogfile_keeps ⟨{ S.log with logfn := some t }, S.world⟩ hW hn
      dsimp only
      split_ifs
      · exact hk'.trans (replay_keeps _ _ hk'.1)
      · exact hk'
  | setOutevery n => exact Keeps.refl hW
  | iterationFinished => exact Keeps.refl hW

lemma run_keeps (ops : List Op) : ∀ (S : State), S.world.Ok → 0 < S.world.next → (∀ op ∈ ops, op.NotPlain) → Keeps S.world (run S ops).world := by
  induction ops with
  | nil => intro S hW _ _; exact Keeps.refl hW
  | cons op ops ih =>
    intro S hW hn hops
    have h := step_keeps S hW hn op (hops op (by simp))
    have := ih (step S op).2 h.1 (lt_of_lt_of_le hn h.2.1) (fun o ho => hops o (by simp [ho]))
    simp only [run, List.foldl_cons] at this ⊢
    exact h.trans this

end CM.Log
