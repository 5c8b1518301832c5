import Verif.Lemmas.Logger3
/-!
# Logger: properties C68 to C73
-/
namespace CM.Log

/-! ## C68: which records are printed -/

/-- **C68.**  A logger whose counters were just reset (by the constructor, `set_outevery`, `iteration_finished`, or the opening of an iteration file) writes,
for any sequence of messages and records, exactly the lines of the specification, in the order of the calls: each message one line; a record
iff it is forced or its number is a multiple of `outevery`; before it a header iff the number of records printed before is a multiple of `sepevery`.
It stays attached to the same file and keeps its settings. -/
theorem C68_printed (S : State) (hopen : S.log.logfile = none → S.log.logfn = none)
    (hout : S.log.outcounter = S.log.outevery) (hsep : S.log.sepcounter = 0)
    (head line : List Text → List Val → Text) (evs : List Event) (hok : ∀ e ∈ evs, e.Ok head line) :
    sink (run S (evs.map Event.op)) = sink S ++ (List.range evs.length).flatMap (lines head line S.log.outevery S.log.sepevery evs)
    ∧ (run S (evs.map Event.op)).log.logfile = S.log.logfile
    ∧ (run S (evs.map Event.op)).log.outevery = S.log.outevery ∧ (run S (evs.map Event.op)).log.sepevery = S.log.sepevery := by
  obtain ⟨_, _, h3, h4, h5, h6, _⟩ := run_events S hopen ⟨by simp [hout], by simp [hout], by simp [hsep], by simp [hsep]⟩ head line evs hok
  exact ⟨h3, h6, h4, h5⟩

/-- **C68.**  The same while a template name is waiting for its file: the first call opens a new, empty file and everything goes there. -/
theorem C68_printed_template (S : State) (t : Template) (h1 : S.log.logfile = none) (h2 : S.log.logfn = some t)
    (hnext : 0 < S.world.next) (hworld : S.world.Ok)
    (head line : List Text → List Val → Text) (evs : List Event) (hne : evs ≠ []) (hok : ∀ e ∈ evs, e.Ok head line) :
    let S' := run S (evs.map Event.op)
    S'.log.logfile = some S.world.next ∧ S'.world.lookup (t.name S.log.it) = some S.world.next
    ∧ S'.world.data S.world.next = (List.range evs.length).flatMap (lines head line S.log.outevery S.log.sepevery evs) := by
  intro S'
  obtain ⟨m1, m2, m3, m4, m5⟩ := moved_spec S.world hworld (t.name S.log.it)
  obtain ⟨o1, o2⟩ := openW_new (moved S.world (t.name S.log.it)) m1 (by omega) _ m4
  set T := openLogfile S with hT
  have hTe : T = ⟨{ S.log with outcounter := S.log.outevery, sepcounter := 0, logfile := some S.world.next },
      ⟨(moved S.world (t.name S.log.it)).files ++ [(t.name S.log.it, S.world.next)], fun j => if j = S.world.next then [] else S.world.data j, S.world.next + 1⟩⟩ := by
    rw [hT, openLogfile_pending S t h1 h2, o1, m2, m3]
  have hrun : S' = run T (evs.map Event.op) := by
    cases evs with
    | nil => exact absurd rfl hne
    | cons e evs =>
      show run S ((e :: evs).map Event.op) = _
      simp only [List.map_cons, run, List.foldl_cons]
      congr 1
      cases e with
      | message c t => simp only [Event.op, step, pr, hT, openLogfile_idem]
      | record h v f =>
        have hl : h.length = v.length := (hok (.record h v f) (by simp)).1
        simp only [Event.op, step, st, hl, ne_eq, not_true_eq_false, if_false, hT, openLogfile_idem]
  have hready : T.log.logfile = none → T.log.logfn = none := ready_openLogfile S
  obtain ⟨c1, c2, c3, c4⟩ := C68_printed T hready (by rw [hTe]) (by rw [hTe]) head line evs hok
  rw [← hrun] at c1 c2 c3 c4
  have hf : S'.log.logfile = some S.world.next := by rw [c2, hTe]
  refine ⟨hf, ?_, ?_⟩
  · -- the directory is that of the opened state
    have hfiles : ∀ (ops : List Op) (U : State), (∀ op ∈ ops, (∃ c t, op = .pr c t) ∨ ∃ h v f, op = .st h v f) → Ready U → (run U ops).world.files = U.world.files ∧ Ready (run U ops) := by
      have hprint : ∀ (U : State) (s : Text), (print U s).world.files = U.world.files ∧ (Ready U → Ready (print U s)) := by
        intro U s
        obtain ⟨_, _, _, _, a5, a6, _⟩ := print_counters U s none
        refine ⟨?_, fun h h' => ?_⟩
        · unfold print; cases U.log.logfile <;> rfl
        · rw [a5] at h'; rw [a6]; exact h h'
      have hrec : ∀ (U : State) (h : List Text) (v : List Val), (printRecord U h v).2.world.files = U.world.files ∧ (Ready U → Ready (printRecord U h v).2) := by
        intro U h v
        unfold printRecord printHeader
        split_ifs with hle
        · cases headerLine h v with
          | error e => exact ⟨rfl, fun h => h⟩
          | ok H =>
            have p1 := hprint ⟨{ U.log with sepcounter := U.log.sepcounter - 1 }, U.world⟩ H
            dsimp only
            cases recordLine v with
            | error e => exact ⟨p1.1, fun h => p1.2 h⟩
            | ok r =>
              have p2 := hprint (⟨{ (print ⟨{ U.log with sepcounter := U.log.sepcounter - 1 }, U.world⟩ H).log with
                sepcounter := (print ⟨{ U.log with sepcounter := U.log.sepcounter - 1 }, U.world⟩ H).log.sepevery },
                (print ⟨{ U.log with sepcounter := U.log.sepcounter - 1 }, U.world⟩ H).world⟩) r
              exact ⟨p2.1.trans p1.1, fun h => p2.2 (p1.2 h)⟩
        · dsimp only
          cases recordLine v with
          | error e => exact ⟨rfl, fun h => h⟩
          | ok r => exact hprint ⟨{ U.log with sepcounter := U.log.sepcounter - 1 }, U.world⟩ r
      intro ops
      induction ops with
      | nil => intro U _ hU; exact ⟨rfl, hU⟩
      | cons op ops ih =>
        intro U hops hU
        have hstep : (step U op).2.world.files = U.world.files ∧ Ready (step U op).2 := by
          rcases hops op (by simp) with ⟨c, t, rfl⟩ | ⟨h, v, f, rfl⟩
          · simp only [step, pr, openLogfile_ready U hU]
            exact ⟨(hprint _ _).1, (hprint _ _).2 hU⟩
          · simp only [step, st, openLogfile_ready U hU]
            split_ifs
            · exact ⟨rfl, hU⟩
            · exact ⟨(hrec _ _ _).1, (hrec _ _ _).2 hU⟩
            · exact ⟨(hrec ⟨{ U.log with outcounter := U.log.outevery }, U.world⟩ _ _).1, (hrec ⟨{ U.log with outcounter := U.log.outevery }, U.world⟩ _ _).2 hU⟩
            · exact ⟨(hrec ⟨{ U.log with outcounter := U.log.outcounter - 1 }, U.world⟩ _ _).1, (hrec ⟨{ U.log with outcounter := U.log.outcounter - 1 }, U.world⟩ _ _).2 hU⟩
            · exact ⟨rfl, hU⟩
        have := ih (step U op).2 (fun o ho => hops o (by simp [ho])) hstep.2
        simp only [run, List.foldl_cons] at this ⊢
        exact ⟨this.1.trans hstep.1, this.2⟩
    have hops : ∀ op ∈ evs.map Event.op, (∃ c t, op = .pr c t) ∨ ∃ h v f, op = .st h v f := by
      intro op hop
      obtain ⟨e, _, rfl⟩ := List.mem_map.1 hop
      cases e with
      | message c t => exact Or.inl ⟨c, t, rfl⟩
      | record h v f => exact Or.inr ⟨h, v, f, rfl⟩
    have hfs := (hfiles _ T hops hready).1
    rw [← hrun] at hfs
    have hlk : S'.world.lookup (t.name S.log.it) = T.world.lookup (t.name S.log.it) := by
      unfold World.lookup; rw [hfs]
    rw [hlk]
    have hTok : T.world.Ok := by rw [hT, openLogfile_pending S t h1 h2]; exact o2
    rw [lookup_iff T.world hTok, hTe]
    simp
  · have hs : sink S' = S'.world.data S.world.next := by unfold sink; rw [hf]
    have hs0 : sink T = [] := by rw [hTe]; simp [sink]
    rw [← hs, c1, hs0, List.nil_append, hTe]

/-- **C68.**  The calls that reset the counters. -/
theorem C68_reset (S : State) (n : ℤ) :
    ((setOutevery S n).log.outevery = n ∧ (setOutevery S n).log.outcounter = n ∧ (setOutevery S n).log.sepcounter = 0)
    ∧ (iterationFinished S).log.outcounter = (iterationFinished S).log.outevery ∧ (iterationFinished S).log.sepcounter = 0 :=
  ⟨⟨rfl, rfl, rfl⟩, rfl, rfl⟩

/-- Hypotheses of **C68** are met by a new logger, whatever it is given. -/
theorem C68_constructor (W : World) (a : LogArg) (o s : ℤ) :
    ((create W a o s).log.logfile = none → (create W a o s).log.logfn = none)
    ∧ (create W a o s).log.outcounter = (create W a o s).log.outevery ∧ (create W a o s).log.sepcounter = 0
    ∧ (create W a o s).log.outevery = o ∧ (create W a o s).log.sepevery = s := by
  cases a with
  | none => exact ⟨fun _ => rfl, rfl, rfl, rfl, rfl⟩
  | handle i => unfold create; rw [setLogfile_handle]; exact ⟨fun h => by simp [attach] at h, rfl, rfl, rfl, rfl⟩
  | plain fn => unfold create; rw [setLogfile_plain]; exact ⟨fun h => by simp [attach] at h, rfl, rfl, rfl, rfl⟩
  | template t =>
    have h : (create W (.template t) o s).log.logfile ≠ none := by
      unfold create setLogfile
      dsimp only
      rw [openLogfile_pending _ t rfl rfl]
      simp [replay]
    refine ⟨fun h' => absurd h' h, ?_⟩
    unfold create setLogfile
    dsimp only
    rw [openLogfile_pending _ t rfl rfl]
    simp [replay]

example : ∃ (evs : List Event) (head line : List Text → List Val → Text), evs.length = 3 ∧ ∀ e ∈ evs, e.Ok head line := by
  refine ⟨[.message "main".toList "hello".toList, .record ["it".toList] [.leaf 8 "1".toList] false, .record ["it".toList] [.leaf 8 "2".toList] true],
    fun h v => match headerLine h v with
      | .ok s => s
      | .error _ => [], fun _ v => match recordLine v with
      | .ok s => s
      | .error _ => [], rfl, ?_⟩
  intro e he
  simp only [List.mem_cons, List.not_mem_nil, or_false] at he
  rcases he with rfl | rfl | rfl
  · trivial
  · exact ⟨rfl, rfl, rfl⟩
  · exact ⟨rfl, rfl, rfl⟩

/-! ## C69: late log files -/

/-- **C69 (partial).**  For every history without `set_logfile`, a logger created without a file and attached to an open file afterwards is, with the file system, in exactly the state of a logger that had the
file from the start: all lines are in the file, once, in order, and the same holds for whatever is logged later.  The file must not be standard output if there were warnings. -/
theorem C69_late_file_partial (W : World) (o s : ℤ) (ops : List Op) (i : ℕ)
    (hset : ∀ op ∈ ops, ∀ a, op ≠ .setLogfile a) (hwarn : i = 0 → ∀ op ∈ ops, ∀ c t, op ≠ .warn c t) :
    setLogfile (run (create W .none o s) ops) (.handle i) = run (create W (.handle i) o s) ops := by
  have h0 : create W (.handle i) o s = attach i (create W .none o s) := by
    unfold create
    rw [setLogfile_handle]
    unfold attach setLogfile
    simp
  have hb : Bare (create W .none o s) := ⟨rfl, rfl⟩
  rw [h0, setLogfile_handle]
  refine (run_attach i ops _ hb ?_ ?_).1.symm
  · intro op hop
    cases op with
    | setLogfile a => exact absurd rfl (hset _ hop a)
    | _ => trivial
  · intro hi op hop
    cases op with
    | warn c t => exact absurd rfl (hwarn hi _ hop c t)
    | _ => trivial

/-- **C69 (partial).**  The same for a file given by name. -/
theorem C69_late_name_partial (W : World) (hW : W.Ok) (hn : 0 < W.next) (o s : ℤ) (ops : List Op) (fn : String)
    (hset : ∀ op ∈ ops, ∀ a, op ≠ .setLogfile a) :
    setLogfile (run (create W .none o s) ops) (.plain fn) = run (create W (.plain fn) o s) ops := by
  have hns : ∀ op ∈ ops, op.NotSet := by
    intro op hop
    cases op with
    | setLogfile a => exact absurd rfl (hset _ hop a)
    | _ => trivial
  set L0 : Logger := ⟨s, o, o, 0, 1, none, none, []⟩ with hL0
  have hc0 : create W .none o s = ⟨L0, W⟩ := rfl
  obtain ⟨L', l, hrun⟩ := run_bare ops L0 rfl rfl hns
  obtain ⟨o1, o2⟩ := openW_stdout W hW hn fn l
  have hcp : create W (.plain fn) o s = attach (W.openW fn).1 ⟨L0, (W.openW fn).2⟩ := by
    unfold create
    rw [setLogfile_plain]
  rw [hcp, hc0, hrun, setLogfile_plain]
  dsimp only
  rw [o1]
  dsimp only
  rw [(run_attach (W.openW fn).1 ops ⟨L0, (W.openW fn).2⟩ ⟨rfl, rfl⟩ hns (fun h => absurd h o2)).1, hrun]

/-- **C69 (partial).**  Whatever file is attached to a logger that has none, the buffered lines are printed there, once and in order, after what the file contains (nothing, if it was just opened), and the buffer is empty. -/
theorem C69_buffer_printed_partial (S : State) (h1 : S.log.logfile = none) (a : LogArg) (ha : a ≠ .none) :
    (setLogfile S a).log.buffer = []
    ∧ sink (setLogfile S a) = (match a with
      | .handle i => S.world.data i
      | _ => []) ++ S.log.buffer := by
  cases a with
  | none => exact absurd rfl ha
  | handle i =>
    rw [setLogfile_handle]
    exact ⟨rfl, by simp [sink, attach]⟩
  | plain fn =>
    rw [setLogfile_plain]
    refine ⟨rfl, ?_⟩
    simp only [sink, attach, if_true]
    unfold World.openW
    cases S.world.lookup fn <;> simp
  | template t =>
    refine ⟨rfl, ?_⟩
    have hp := openLogfile_pending ⟨{ S.log with logfn := some t }, S.world⟩ t h1 rfl
    unfold setLogfile
    dsimp only at hp ⊢
    rw [hp]
    dsimp only
    rw [Option.isSome_some, if_pos rfl, replay_file _ _ _ rfl]
    simp only [sink, if_true]
    unfold World.openW
    cases (moved S.world (t.name S.log.it)).lookup (t.name S.log.it) <;> simp

/-- **C69 refuted.**  `set_logfile(None)` discards the buffered lines: they are in no file, and a file attached later does not get them. -/
theorem C69_none_discards_partial (S : State) (i : ℕ) :
    (setLogfile S .none).log.buffer = [] ∧ (setLogfile S .none).world = S.world ∧ (setLogfile S .none).log.logfile = none
    ∧ (setLogfile (setLogfile S .none) (.handle i)).world.data i = S.world.data i := by
  refine ⟨rfl, rfl, rfl, ?_⟩
  rw [setLogfile_handle]
  simp [attach, setLogfile]

/-- **C69 refuted.**  A warning given before standard output is attached appears there twice. -/
theorem C69_warning_twice_partial (W : World) (o s : ℤ) (c t : Text) :
    (setLogfile (warn (create W .none o s) c t) (.handle 0)).world.data 0
      = W.data 0 ++ [commentLine c ("Warning: ".toList ++ t), commentLine c ("Warning: ".toList ++ t)] := by
  unfold warn pr
  generalize commentLine c ("Warning: ".toList ++ t) = l
  rw [setLogfile_handle, openLogfile_ready _ (fun _ => rfl)]
  simp [attach, print, create, setLogfile, World.write]

/-! ## C70: existing files survive -/

/-- **C70.**  Opening an iteration file whose name exists renames the existing file to the first free backup name; the new file is empty; all other names and all contents stay. -/
theorem C70_backup (S : State) (t : Template) (hW : S.world.Ok) (hn : 0 < S.world.next) (h1 : S.log.logfile = none) (h2 : S.log.logfn = some t)
    (i : ℕ) (hi : S.world.lookup (t.name S.log.it) = some i) :
    ∃ k : ℕ, S.world.lookup (t.name S.log.it ++ "." ++ Nat.repr k ++ ".bak") = none
      ∧ (∀ j < k, S.world.lookup (t.name S.log.it ++ "." ++ Nat.repr j ++ ".bak") ≠ none)
      ∧ (openLogfile S).world.lookup (t.name S.log.it ++ "." ++ Nat.repr k ++ ".bak") = some i
      ∧ (openLogfile S).log.logfile = some S.world.next ∧ (openLogfile S).world.lookup (t.name S.log.it) = some S.world.next
      ∧ (openLogfile S).world.data S.world.next = []
      ∧ (∀ name, name ≠ t.name S.log.it → name ≠ t.name S.log.it ++ "." ++ Nat.repr k ++ ".bak" → (openLogfile S).world.lookup name = S.world.lookup name)
      ∧ ∀ j, j ≠ S.world.next → (openLogfile S).world.data j = S.world.data j := by
  set fn := t.name S.log.it with hfn
  have hhas : S.world.hasFile fn = true := by unfold World.hasFile; rw [hi]; rfl
  obtain ⟨b1, b2⟩ := freeBackup_least S.world fn
  set k := freeBackup S.world fn (S.world.files.length + 1) 0 with hk
  have hnb : ∀ j, S.world.hasFile (backupName fn j) = false ↔ S.world.lookup (backupName fn j) = none := by
    intro j; unfold World.hasFile; cases S.world.lookup (backupName fn j) <;> simp
  have hmoved : moved S.world fn = S.world.rename fn (backupName fn k) := by unfold moved; rw [if_pos hhas]
  obtain ⟨m1, m2, m3, m4, m5⟩ := moved_spec S.world hW fn
  obtain ⟨o1, o2⟩ := openW_new (moved S.world fn) m1 (by omega) _ m4
  have hop : openLogfile S = ⟨{ S.log with outcounter := S.log.outevery, sepcounter := 0, logfile := some S.world.next },
      ⟨(moved S.world fn).files ++ [(fn, S.world.next)], fun j => if j = S.world.next then [] else S.world.data j, S.world.next + 1⟩⟩ := by
    rw [openLogfile_pending S t h1 h2, ← hfn, o1, m2, m3]
  have hok : (openLogfile S).world.Ok := by rw [openLogfile_pending S t h1 h2]; exact o2
  have hmem : ∀ name j, (openLogfile S).world.lookup name = some j ↔ (name, j) ∈ (moved S.world fn).files ++ [(fn, S.world.next)] := by
    intro name j
    rw [lookup_iff _ hok, hop]
  have hmv : ∀ name j, (name, j) ∈ (moved S.world fn).files ↔ (∃ p ∈ S.world.files, (if p.1 = fn then (backupName fn k, p.2) else p) = (name, j)) := by
    intro name j
    rw [hmoved]
    simp only [World.rename, List.mem_map]
  have hfni : (fn, i) ∈ S.world.files := lookup_mem _ _ _ hi
  have hbn : backupName fn k ≠ fn := by
    intro h; rw [h, hhas] at b1; exact absurd b1 (by simp)
  refine ⟨k, (hnb k).1 b1, ?_, ?_, ?_, ?_, ?_, ?_, ?_⟩
  · intro j hj h
    have := b2 j hj
    rw [(hnb j).2 h] at this
    exact absurd this (by simp)
  · show (openLogfile S).world.lookup (backupName fn k) = some i
    rw [hmem]
    exact List.mem_append_left _ ((hmv _ _).2 ⟨_, hfni, by rw [if_pos rfl]⟩)
  · rw [hop]
  · rw [hmem]; simp
  · rw [hop]; simp
  · intro name hn1 hn2
    have hn2 : name ≠ backupName fn k := hn2
    apply Option.ext
    intro j
    rw [hmem, lookup_iff _ hW, List.mem_append, hmv]
    constructor
    · rintro (⟨p, hp, e⟩ | h)
      · by_cases hpf : p.1 = fn
        · rw [if_pos hpf] at e
          exact absurd (Prod.ext_iff.1 e).1.symm hn2
        · rw [if_neg hpf] at e
          rw [← e]; exact hp
      · rw [List.mem_singleton] at h
        exact absurd (Prod.ext_iff.1 h).1 hn1
    · intro h
      exact Or.inl ⟨_, h, by rw [if_neg hn1]⟩
  · intro j hj
    rw [hop]
    simp [hj]

/-- **C70.**  When the name is free nothing is renamed. -/
theorem C70_new_name (S : State) (t : Template) (hW : S.world.Ok) (hn : 0 < S.world.next) (h1 : S.log.logfile = none) (h2 : S.log.logfn = some t)
    (hi : S.world.lookup (t.name S.log.it) = none) :
    (openLogfile S).world.lookup (t.name S.log.it) = some S.world.next ∧ (openLogfile S).world.data S.world.next = []
      ∧ (∀ name, name ≠ t.name S.log.it → (openLogfile S).world.lookup name = S.world.lookup name)
      ∧ ∀ j, j ≠ S.world.next → (openLogfile S).world.data j = S.world.data j := by
  set fn := t.name S.log.it with hfn
  have hhas : S.world.hasFile fn = false := by unfold World.hasFile; rw [hi]; rfl
  have hmoved : moved S.world fn = S.world := by unfold moved; rw [hhas]; rfl
  obtain ⟨m1, m2, m3, m4, m5⟩ := moved_spec S.world hW fn
  rw [hmoved] at m4
  obtain ⟨o1, o2⟩ := openW_new S.world hW hn _ m4
  have hop : openLogfile S = ⟨{ S.log with outcounter := S.log.outevery, sepcounter := 0, logfile := some S.world.next },
      ⟨S.world.files ++ [(fn, S.world.next)], fun j => if j = S.world.next then [] else S.world.data j, S.world.next + 1⟩⟩ := by
    rw [openLogfile_pending S t h1 h2, ← hfn, hmoved, o1]
  have hok : (openLogfile S).world.Ok := by rw [openLogfile_pending S t h1 h2, ← hfn, hmoved]; exact o2
  have hmem : ∀ name j, (openLogfile S).world.lookup name = some j ↔ (name, j) ∈ S.world.files ++ [(fn, S.world.next)] := by
    intro name j
    rw [lookup_iff _ hok, hop]
  refine ⟨by rw [hmem]; simp, by rw [hop]; simp, ?_, fun j hj => by rw [hop]; simp [hj]⟩
  intro name hn1
  apply Option.ext
  intro j
  rw [hmem, lookup_iff _ hW, List.mem_append]
  constructor
  · rintro (h | h)
    · exact h
    · rw [List.mem_singleton] at h
      exact absurd (Prod.ext_iff.1 h).1 hn1
  · exact Or.inl

/-- **C70.**  Over any history of calls that passes no plain file name to `set_logfile`, from any file system: every file that existed still exists under some name, and its
contents are a prefix of what they are now (only a log file that is written to grows). -/
theorem C70_history (S : State) (hW : S.world.Ok) (hn : 0 < S.world.next) (ops : List Op) (hops : ∀ op ∈ ops, ∀ fn, op ≠ .setLogfile (.plain fn))
    (name : String) (i : ℕ) (hi : S.world.lookup name = some i) :
    (∃ name', (run S ops).world.lookup name' = some i) ∧ S.world.data i <+: (run S ops).world.data i := by
  have hk := run_keeps ops S hW hn (by
    intro op hop
    cases op with
    | setLogfile a =>
      cases a with
      | plain fn => exact absurd rfl (hops _ hop fn)
      | _ => trivial
    | _ => trivial)
  have hm := lookup_mem _ _ _ hi
  obtain ⟨n', hn'⟩ := hk.2.2.1 _ hm
  exact ⟨⟨n', (lookup_iff _ hk.1 _ _).2 hn'⟩, hk.2.2.2 i (hW.2.2 _ hm).2⟩

/-- A file system with two files for **C70**. -/
def twoFiles : World := ⟨[("log-1", 1), ("log-1.0.bak", 2)], fun j => if j = 0 then [] else [['x']], 3⟩

example : twoFiles.Ok ∧ 0 < twoFiles.next ∧ twoFiles.lookup (Template.name ⟨"log-", ""⟩ 1) = some 1 := by
  refine ⟨⟨by decide, by decide, ?_⟩, by decide, by decide⟩
  intro p hp
  simp only [twoFiles, List.mem_cons, List.not_mem_nil, or_false] at hp
  rcases hp with rfl | rfl <;> decide

/-- **C70, contrast.**  A plain name overwrites. -/
theorem C70_plain_overwrites (S : State) (fn : String) (i : ℕ) (hi : S.world.lookup fn = some i) (hb : S.log.buffer = []) :
    (setLogfile S (.plain fn)).world.data i = [] := by
  rw [setLogfile_plain]
  unfold World.openW
  rw [hi]
  simp [attach, hb]

/-- Is the call `iteration_finished()`? -/
def Op.isFinished : Op → Bool
  | .iterationFinished => true
  | _ => false

lemma it_openLogfile (S : State) : (openLogfile S).log.it = S.log.it := by
  unfold openLogfile
  split <;> rfl

lemma it_print (S : State) (s : Text) (e : Option ℕ) : (print S s e).log.it = S.log.it := by
  unfold print
  dsimp only
  split <;> rfl

lemma it_replay (l : List Text) : ∀ S : State, (replay S l).log.it = S.log.it := by
  induction l with
  | nil => intro S; rfl
  | cons s l ih => intro S; exact (ih _).trans (it_print S s none)

lemma it_setLogfile (S : State) (a : LogArg) : (setLogfile S a).log.it = S.log.it := by
  unfold setLogfile
  cases a <;> dsimp only <;> split <;> simp [it_replay, it_openLogfile]

lemma it_printRecord (S : State) (h : List Text) (v : List Val) : (printRecord S h v).2.log.it = S.log.it := by
  unfold printRecord printHeader
  by_cases h0 : S.log.sepcounter - 1 ≤ 0
  · simp only [h0, if_true]
    cases headerLine h v with
    | error e => rfl
    | ok x =>
      cases recordLine v with
      | error e => exact it_print _ _ _
      | ok r => exact (it_print _ _ _).trans (it_print _ _ _)
  · simp only [h0, if_false]
    cases recordLine v with
    | error e => rfl
    | ok r => exact it_print _ _ _

lemma it_st (S : State) (h : List Text) (v : List Val) (f : Bool) : (st S h v f).2.log.it = S.log.it := by
  unfold st
  by_cases hl : h.length ≠ v.length
  · rw [if_pos hl]
  · rw [if_neg hl]
    dsimp only
    by_cases h1 : (openLogfile S).log.outevery = 1
    · rw [if_pos h1, it_printRecord, it_openLogfile]
    · rw [if_neg h1]
      by_cases h2 : (openLogfile S).log.outcounter - 1 ≤ 0
      · rw [if_pos h2, it_printRecord]; exact it_openLogfile S
      · rw [if_neg h2]
        by_cases h3 : f = true
        · rw [if_pos h3, it_printRecord]; exact it_openLogfile S
        · rw [if_neg h3]; exact it_openLogfile S

/-- **C70.**  The number in the name of the file counts the finished iterations, from one: after every history of calls on a new logger it is one more than the number of calls of `iteration_finished`. -/
theorem C70_numbering (W : World) (a : LogArg) (o s : ℤ) (ops : List Op) :
    (run (create W a o s) ops).log.it = 1 + ops.countP Op.isFinished := by
  have h : ∀ (ops : List Op) (S : State), (run S ops).log.it = S.log.it + ops.countP Op.isFinished := by
    intro ops
    induction ops with
    | nil => intro S; rfl
    | cons op ops ih =>
      intro S
      have hr : run S (op :: ops) = run (step S op).2 ops := rfl
      rw [hr, ih, List.countP_cons]
      cases op with
      | pr c t => simp [step, pr, it_print, it_openLogfile, Op.isFinished]
      | warn c t => simp [step, warn, pr, it_print, it_openLogfile, Op.isFinished]
      | st h v f => simp [step, it_st, Op.isFinished]
      | setLogfile a => simp [step, it_setLogfile, Op.isFinished]
      | setOutevery n => simp [step, setOutevery, Op.isFinished]
      | iterationFinished => simp only [step, iterationFinished, Op.isFinished, if_true]; omega
  rw [h]
  congr 1
  exact it_setLogfile _ _

/-- **C70.**  With a templated name, the first line after `iteration_finished` is the only line of a file with the name of the next iteration; the file of the previous iteration gets nothing. -/
theorem C70_next_file (S : State) (t : Template) (hW : S.world.Ok) (hn : 0 < S.world.next) (h2 : S.log.logfn = some t) (c x : Text) :
    ∃ i, (pr (iterationFinished S) c x).world.lookup (t.name (S.log.it + 1)) = some i ∧ (pr (iterationFinished S) c x).world.data i = [commentLine c x]
      ∧ ∀ j, S.log.logfile = some j → j < S.world.next → (pr (iterationFinished S) c x).world.data j = S.world.data j := by
  have g1 : (iterationFinished S).log.logfile = none := by simp [iterationFinished, h2]
  have g2 : (iterationFinished S).log.logfn = some t := h2
  have hop : ∃ W', openLogfile (iterationFinished S) = ⟨{ (iterationFinished S).log with outcounter := (iterationFinished S).log.outevery, sepcounter := 0, logfile := some S.world.next }, W'⟩
      ∧ W'.lookup (t.name (S.log.it + 1)) = some S.world.next ∧ W'.data S.world.next = [] ∧ ∀ j, j ≠ S.world.next → W'.data j = S.world.data j := by
    obtain ⟨m1, m2, m3, m4, m5⟩ := moved_spec S.world hW (t.name (S.log.it + 1))
    obtain ⟨o1, o2⟩ := openW_new (moved S.world (t.name (S.log.it + 1))) m1 (by omega) _ m4
    refine ⟨⟨(moved S.world (t.name (S.log.it + 1))).files ++ [(t.name (S.log.it + 1), S.world.next)], fun j => if j = S.world.next then [] else S.world.data j, S.world.next + 1⟩, ?_, ?_, ?_, ?_⟩
    · rw [openLogfile_pending _ t g1 g2]
      show State.mk _ _ = _
      have : (iterationFinished S).log.it = S.log.it + 1 := rfl
      rw [this]
      have hw : (iterationFinished S).world = S.world := rfl
      rw [hw, o1, m2, m3]
    · have hok := o2
      rw [o1] at hok
      rw [m2, m3] at hok
      rw [lookup_iff _ hok]
      simp
    · simp
    · intro j hj; simp [hj]
  obtain ⟨W', e, l1, l2, l3⟩ := hop
  refine ⟨S.world.next, ?_, ?_, ?_⟩
  · unfold pr; rw [e]; exact l1
  · unfold pr; rw [e]; simp [print, World.write, l2]
  · intro j hj hlt
    have hne : j ≠ S.world.next := by omega
    unfold pr; rw [e]; simp [print, World.write, l3 j hne, hne]

/-! ## C71: the quiet logger -/

/-- **C71 refuted.**  The quiet logger keeps every line: after `n` messages its buffer has `n` lines. -/
theorem C71_grows_partial (W : World) (o s : ℤ) (msgs : List (Text × Text)) :
    (run (create W .none o s) (msgs.map fun m => .pr m.1 m.2)).log.buffer = msgs.map fun m => commentLine m.1 m.2 := by
  have h : ∀ (msgs : List (Text × Text)) (S : State), Bare S → (run S (msgs.map fun m => .pr m.1 m.2)).log.buffer = S.log.buffer ++ msgs.map fun m => commentLine m.1 m.2 := by
    intro msgs
    induction msgs with
    | nil => intro S _; simp [run]
    | cons m msgs ih =>
      intro S hS
      have := ih (pr S m.1 m.2) (step_attach 1 S hS (.pr m.1 m.2) trivial (by simp)).2.2
      simp only [List.map_cons, run, List.foldl_cons, step] at this ⊢
      rw [this]
      unfold pr
      rw [openLogfile_ready S (bare_ready S hS)]
      unfold print
      simp [hS.1]
  rw [h msgs _ ⟨rfl, rfl⟩]
  rfl

/-- **C71 refuted.**  No bound holds for all histories. -/
theorem C71_no_bound_partial (W : World) (o s : ℤ) (bound : ℕ) : ∃ ops : List Op, bound < (run (create W .none o s) ops).log.buffer.length := by
  refine ⟨(List.replicate (bound + 1) (("f".toList, "g".toList) : Text × Text)).map fun m => .pr m.1 m.2, ?_⟩
  rw [C71_grows_partial]
  simp

/-! ## C72, C73: columns -/

/-- **C73 (partial).**  For scalars and vectors of scalars (not empty) the header and the record are printed, and have the same number of columns: one for every scalar and every component.  The `k`-th label is right-aligned in
a column of the width of the `k`-th value, and starts with its number. -/
theorem C73_columns_partial (hdr : List Text) (vals : List Val) (hl : hdr.length = vals.length) (hne : vals ≠ []) (hflat : ∀ v ∈ vals, v.Flat) :
    ∃ (labs : List Text) (ws : List (ℕ × Text)), ws.length = (vals.map Val.size).sum ∧ labs.length = ws.length ∧ ws = vals.flatMap Val.columns ∧ labs = allLabels hdr vals
    ∧ headerLine hdr vals = .ok ('#' :: joinCols ((ws.zip (numbered 0 labs)).map fun p => padLeft p.1.1 p.2))
    ∧ recordLine vals = .ok (' ' :: joinCols (ws.map fun p => padLeft p.1 p.2)) := by
  obtain ⟨h1, h2⟩ := lines_flat hdr vals hl hne hflat
  refine ⟨allLabels hdr vals, vals.flatMap Val.columns, ?_, allLabels_length vals hflat hdr hl, rfl, rfl, h1, h2⟩
  rw [List.length_flatMap]
  congr 1
  apply List.map_congr_left
  intro v hv
  exact columns_length v (hflat v hv)

/-- **C73 (partial).**  Scalars are labelled by their names; component `k` of a vector by the name with a letter: `x`, `y`, `z`, and the characters that follow. -/
theorem C73_labels_partial (h : Text) (hs : List Text) (vs : List Val) :
    (∀ w t, allLabels (h :: hs) (.leaf w t :: vs) = h :: allLabels hs vs)
    ∧ ∀ l : List Val, l ≠ [] → allLabels (h :: hs) (.vec l :: vs)
      = ((List.range l.length).map fun k => h ++ ['(', Char.ofNat (120 + k), ')']) ++ allLabels hs vs := by
  refine ⟨fun w t => rfl, fun l hl => ?_⟩
  cases l with
  | nil => exact absurd rfl hl
  | cons v l =>
    rw [allLabels, labels]
    · congr 1
      apply List.map_congr_left
      intro k _
      simp only [List.append_assoc, List.cons_append, List.nil_append]
      rfl
    · intro h; cases h

example : ∃ vals : List Val, vals ≠ [] ∧ (∀ v ∈ vals, v.Flat) ∧ (vals.map Val.size).sum = 4 :=
  ⟨[.leaf 8 ['1'], .vec [.leaf 20 ['2'], .leaf 20 ['3'], .leaf 20 ['4']]], by simp, by simp [Val.Flat], by simp [Val.size]⟩

/-- **C73 refuted.**  A nested vector has more components than labels, and the header cannot be made: a vector of `n` vectors of `m` scalars each, `m ≥ 2`, `n ≥ 1`. -/
theorem C73_nested_partial (h : Text) (ls : List (List (ℕ × Text))) (hne : ls ≠ []) (m : ℕ) (hm : 2 ≤ m) (hl : ∀ l ∈ ls, l.length = m) :
    headerLine [h] [.vec (ls.map fun l => .vec (l.map fun p => .leaf p.1 p.2))] = .error .indexError := by
  have hcells : ∀ (ws : List (ℕ × Text)) (args : List Text), args.length < ws.length →
      cells (ws.map fun p => .leaf p.1 p.2) args = .error .indexError := by
    intro ws
    induction ws with
    | nil => intro args h; simp at h
    | cons p ws ih =>
      intro args h
      cases args with
      | nil => rfl
      | cons a args => rw [List.map_cons, cells, ih args (by simpa using h)]; rfl
  have hflat : flatten (.vec [.vec (ls.map fun l => .vec (l.map fun p => .leaf p.1 p.2))]) = ls.flatten.map fun p => .leaf p.1 p.2 := by
    rw [flatten_vec _ (by simp), List.flatMap_singleton, flatten_vec _ (by simpa using hne), List.flatMap_map, List.map_flatten, List.flatMap_def]
    congr 1
    apply List.map_congr_left
    intro l hl'
    have : l ≠ [] := by
      intro h0; have := hl l hl'; rw [h0] at this; simp at this; omega
    rw [flatten_vec _ (by simpa using this), List.flatMap_map]
    simp only [flatten]
    induction l with
    | nil => rfl
    | cons p l _ =>
      clear * -
      generalize p :: l = q
      induction q with
      | nil => rfl
      | cons p l ih => rw [List.flatMap_cons, ih]; rfl
  have hlen : ls.flatten.length = m * ls.length := by
    clear hflat hne
    induction ls with
    | nil => rfl
    | cons l ls ih =>
      rw [List.flatten_cons, List.length_append, hl l (by simp), ih (fun l hl' => hl l (by simp [hl'])), List.length_cons]
      ring
  have hlabs : (allLabels [h] [.vec (ls.map fun l => .vec (l.map fun p => .leaf p.1 p.2))]).length = ls.length := by
    cases ls with
    | nil => exact absurd rfl hne
    | cons l ls => simp [allLabels, labels]
  have hpos : 0 < ls.length := List.length_pos_iff.2 hne
  unfold headerLine render
  rw [hflat]
  have hc := hcells ls.flatten (numbered 0 (allLabels [h] [.vec (ls.map fun l => .vec (l.map fun p => .leaf p.1 p.2))])) (by
    rw [numbered_length, hlabs, hlen]; nlinarith)
  rw [hc]
  split
  · rename_i heq
    have := congrArg List.length heq
    rw [List.length_map, hlen, List.length_singleton] at this
    nlinarith
  · rfl

/-- **C73 refuted.**  A record whose only value is an empty vector raises. -/
theorem C73_empty_partial (h : Text) : headerLine [h] [.vec []] = .error .typeError ∧ recordLine [.vec []] = .error .typeError := ⟨rfl, rfl⟩

/-- **C72 (partial).**  A log that begins with a printed record is read back: the column names are the labels, and the rows are the texts of the printed records, in order.  Needed: the file was empty; labels and values are
words without `#` (labels without `:`); labels are not repeated. -/
theorem C72_read_back_partial (S : State) (hopen : S.log.logfile = none → S.log.logfn = none)
    (hout : S.log.outcounter = S.log.outevery) (hsep : S.log.sepcounter = 0) (hempty : sink S = [])
    (hdr : List Text) (vals0 : List Val) (force0 : Bool) (evs : List Event)
    (hfirst : force0 = true ∨ S.log.outevery ≤ 1)
    (hrec : ∀ e ∈ Event.record hdr vals0 force0 :: evs, match e with
      | .message _ _ => True
      | .record h v _ => h.length = v.length ∧ v ≠ [] ∧ (∀ x ∈ v, x.Flat) ∧ ∀ p ∈ v.flatMap Val.columns, Word p.2)
    (hlab : ∀ s ∈ allLabels hdr vals0, Word s ∧ ':' ∉ s) (hnodup : (allLabels hdr vals0).Nodup) :
    readConvergenceLog (sink (run S ((Event.record hdr vals0 force0 :: evs).map Event.op)))
      = .ok (allLabels hdr vals0, rows S.log.outevery (Event.record hdr vals0 force0 :: evs)) := by
  classical
  set all := Event.record hdr vals0 force0 :: evs with hall
  set head : List Text → List Val → Text := fun h v => '#' :: joinCols (((v.flatMap Val.columns).zip (numbered 0 (allLabels h v))).map fun p => padLeft p.1.1 p.2)
  set line : List Text → List Val → Text := fun _ v => ' ' :: joinCols ((v.flatMap Val.columns).map fun p => padLeft p.1 p.2)
  have hok : ∀ e ∈ all, e.Ok head line := by
    intro e he
    have := hrec e he
    cases e with
    | message c t => trivial
    | record h v f =>
      obtain ⟨a1, a2, a3, _⟩ := this
      obtain ⟨l1, l2⟩ := lines_flat h v a1 a2 a3
      exact ⟨a1, l1, l2⟩
  obtain ⟨hsink, _⟩ := C68_printed S hopen hout hsep head line all hok
  rw [hempty, List.nil_append] at hsink
  rw [hsink]
  -- the first two lines
  have hfp : Printed S.log.outevery all 0 := by
    unfold Printed
    rw [hall, List.getElem?_cons_zero]
    rcases hfirst with h | h
    · exact Or.inl h
    · exact Or.inr (Or.inl h)
  have hl0 : lines head line S.log.outevery S.log.sepevery all 0 = [head hdr vals0, line hdr vals0] := by
    unfold lines
    rw [hall, List.getElem?_cons_zero]
    simp only
    rw [← hall, if_pos hfp, if_pos (Or.inr (by simp [printedBefore]))]
    rfl
  have hlen : all.length = evs.length + 1 := by rw [hall, List.length_cons]
  rw [hlen]
  unfold readConvergenceLog
  have hnames : columnNames ((List.range (evs.length + 1)).flatMap (lines head line S.log.outevery S.log.sepevery all)) = .ok (allLabels hdr vals0) := by
    rw [List.range_succ_eq_map, List.flatMap_cons, hl0]
    obtain ⟨a1, a2, a3, a4⟩ := hrec (Event.record hdr vals0 force0) (by simp [hall])
    refine columnNames_header _ _ (allLabels_length vals0 a3 hdr a1) ?_ hlab _
    intro h0
    have := allLabels_length vals0 a3 hdr a1
    rw [h0] at this
    obtain ⟨v, vs, rfl⟩ := List.exists_cons_of_ne_nil a2
    rw [List.flatMap_cons, List.length_append] at this
    have hp := List.length_pos_iff.2 (columns_ne_nil v (a3 v (by simp)))
    simp at this
    omega
  rw [hnames]
  simp only [bind, Except.bind]
  rw [if_pos hnodup]
  show Except.ok (_, _) = Except.ok (_, _)
  congr 2
  unfold rows
  rw [dataRows_flatMap, hlen]
  apply List.flatMap_congr
  intro k _
  unfold lines
  cases hk : all[k]? with
  | none => rfl
  | some e =>
    have hmem : e ∈ all := List.mem_of_getElem? hk
    cases e with
    | message c t => exact dataRows_comment _
    | record h v f =>
      obtain ⟨a1, a2, a3, a4⟩ := hrec _ hmem
      simp only
      by_cases hp : Printed S.log.outevery all k
      · rw [if_pos hp, if_pos hp, dataRows_append]
        have h1 : dataRows (if S.log.sepevery ≤ 1 ∨ S.log.sepevery ∣ (printedBefore S.log.outevery all k : ℤ) then [head h v] else []) = [] := by
          split_ifs
          · exact dataRows_comment _
          · rfl
        rw [h1, List.nil_append]
        have hne : v.flatMap Val.columns ≠ [] := by
          obtain ⟨x, xs, rfl⟩ := List.exists_cons_of_ne_nil a2
          rw [List.flatMap_cons]
          simp [columns_ne_nil x (a3 x (by simp))]
        exact dataRows_record _ hne a4
      · rw [if_neg hp, if_neg hp]
        rfl

example : ∃ (hdr : List Text) (vals : List Val), hdr.length = vals.length ∧ vals ≠ [] ∧ (∀ x ∈ vals, x.Flat)
    ∧ (∀ p ∈ vals.flatMap Val.columns, Word p.2) ∧ (∀ s ∈ allLabels hdr vals, Word s ∧ ':' ∉ s) ∧ (allLabels hdr vals).Nodup := by
  refine ⟨["it".toList, "energy".toList], [.leaf 8 "1".toList, .leaf 20 "0.5".toList], rfl, by simp, by simp [Val.Flat], ?_, ?_, by decide⟩
  · intro p hp
    simp [Val.columns] at hp
    rcases hp with rfl | rfl
    · exact ⟨by decide, by decide⟩
    · exact ⟨by decide, by decide⟩
  · intro s hs
    simp [allLabels, labels] at hs
    rcases hs with rfl | rfl
    · exact ⟨⟨by decide, by decide⟩, by decide⟩
    · exact ⟨⟨by decide, by decide⟩, by decide⟩

/-- **C72 refuted.**  A label with a blank in it, followed by a word without `:`, makes the log unreadable: reading raises `IndexError`. -/
theorem C72_blank_partial (hdr : List Text) (vals : List Val) (hl : hdr.length = vals.length) (hne : vals ≠ []) (hflat : ∀ v ∈ vals, v.Flat)
    (hlast : ∀ s ∈ allLabels hdr vals, ∃ h : s ≠ [], s.getLast h ≠ '#' ∧ s.getLast h ≠ ' ' ∧ s.getLast h ≠ '\n')
    (a b w : Text) (hs : (a ++ ' ' :: b) ∈ allLabels hdr vals) (hw : w ∈ splitWords [] b) (hcol : ':' ∉ w) (H : Text) (hH : headerLine hdr vals = .ok H) (rest : List Text) :
    readConvergenceLog (H :: rest) = .error .indexError := by
  obtain ⟨h1, _⟩ := lines_flat hdr vals hl hne hflat
  rw [h1] at hH
  injection hH with hH
  rw [← hH]
  unfold readConvergenceLog
  rw [columnNames_blank _ _ (allLabels_length vals hflat hdr hl) hlast a b w hs hw hcol]
  rfl

/-- The names of the columns logged by `constrained_conjugate_gradients` (`ConstrainedConjugateGradients.py:436`), to which more may be added. -/
def ccgHeaders : List Text := ["status".toList, "it".toList, "area".toList, "frac. area".toList, "cg area".toList, "total force".toList, "offset".toList]

lemma allLabels_scalars (hdr : List Text) : ∀ (vals : List (ℕ × Text)), vals.length = hdr.length → allLabels hdr (vals.map fun p => .leaf p.1 p.2) = hdr := by
  induction hdr with
  | nil => intro vals h; cases vals <;> simp [allLabels]
  | cons s hdr ih =>
    intro vals h
    cases vals with
    | nil => simp at h
    | cons p vals => rw [List.map_cons, allLabels, labels, ih vals (by simpa using h)]; rfl

/-- **C72 refuted.**  The log of the constrained conjugate gradients solver cannot be read, whatever its values. -/
theorem C72_solver_log_partial (vals : List (ℕ × Text)) (hl : vals.length = 7) (H : Text)
    (hH : headerLine ccgHeaders (vals.map fun p => .leaf p.1 p.2) = .ok H) (rest : List Text) :
    readConvergenceLog (H :: rest) = .error .indexError := by
  have hlab : allLabels ccgHeaders (vals.map fun p => .leaf p.1 p.2) = ccgHeaders := allLabels_scalars _ _ (by rw [hl]; rfl)
  refine C72_blank_partial ccgHeaders (vals.map fun p => .leaf p.1 p.2) (by rw [List.length_map, hl]; rfl) ?_ ?_ ?_ "frac.".toList "area".toList "area".toList ?_ ?_ ?_ H hH rest
  · intro h
    rw [List.map_eq_nil_iff] at h
    rw [h] at hl
    simp at hl
  · intro v hv
    obtain ⟨p, _, rfl⟩ := List.mem_map.1 hv
    trivial
  · rw [hlab]
    decide
  · rw [hlab]
    decide
  · decide
  · decide

/-- **C72 refuted.**  A log that begins with a message of one word without `:` cannot be read either. -/
theorem C72_message_partial (caller text w : Text) (hw : w ∈ splitWords [] text) (hcol : ':' ∉ w)
    (hlast : ∃ h : text ≠ [], text.getLast h ≠ '#' ∧ text.getLast h ≠ ' ' ∧ text.getLast h ≠ '\n') (rest : List Text) :
    readConvergenceLog (commentLine caller text :: rest) = .error .indexError := by
  obtain ⟨hne, hk⟩ := hlast
  have e : commentLine caller text = '#' :: (List.replicate 1 ' ' ++ ('{' :: (caller ++ ['}', ':'] ++ ' ' :: text))) := by
    simp [commentLine]
  unfold readConvergenceLog columnNames
  rw [List.headD_cons, e, stripHash_shape 1 _ (by simp) (by rw [List.head_cons]; exact ⟨by decide, by decide, by decide⟩) (by
    have : ('{' :: (caller ++ ['}', ':'] ++ ' ' :: text)) = ('{' :: (caller ++ ['}', ':', ' '])) ++ text := by simp
    simp only [this]
    rw [List.getLast_append_of_ne_nil _ hne]
    exact hk)]
  have hm : w ∈ splitWords [] ('{' :: (caller ++ ['}', ':'] ++ ' ' :: text)) := by
    rw [← List.cons_append, splitWords_append_blank]
    exact List.mem_append_right _ hw
  rw [mapM_afterColon_error _ w hm hcol]
  rfl

example : ("area".toList) ∈ splitWords [] "contact area".toList ∧ ':' ∉ "area".toList := by decide

end CM.Log
