import Verif.Proofs.Shared
import Verif.Props.Providers

/-!
# C91: processes that work on one data directory at the same time

Processes of different networks, and processes that work on different files, do not influence each other. Whatever the order of the calls and whoever is
killed, a file never holds a byte that is neither the right one nor a zero, and when all have come to their end without being killed every file is
complete. A state that was stored completely stays so. But two requests for one state at the same time may fail, or leave a hole in the file for ever,
though each alone would succeed.
-/

namespace Signal
open Spec Shared

variable {σ : Type}

/-! ## Isolation -/

theorem decimal_append_inj {m n : Nat} {x : List Char} (h : decimal m ++ x = decimal n ++ x) : m = n := by
  have e := List.append_cancel_right h
  have := (decimal_digits m).2.2
  rw [e, (decimal_digits n).2.2] at this
  exact (Option.some.inj this).symm

/-- What is stored under different networks, slots or epochs, or is of a different kind, is stored in different files. -/
theorem C91_paths (network network' : Network) (n n' : Nat) :
    (statePath network n = statePath network' n' → network = network' ∧ n = n') ∧
    (inputPath network n = inputPath network' n' → network = network' ∧ n = n') ∧
    (journalPath network n = journalPath network' n' → network = network' ∧ n = n') ∧
    statePath network n ≠ inputPath network' n' ∧ statePath network n ≠ journalPath network' n' ∧ inputPath network n ≠ journalPath network' n' := by
  refine ⟨fun h => ?_, fun h => ?_, fun h => ?_, fun h => ?_, fun h => ?_, fun h => ?_⟩
  · simp only [statePath, List.cons.injEq, and_true] at h
    exact ⟨Network.name_inj h.1, decimal_append_inj h.2.2⟩
  · simp only [inputPath, List.cons.injEq, and_true] at h
    exact ⟨Network.name_inj h.1, decimal_append_inj h.2.2⟩
  · simp only [journalPath, List.cons.injEq, and_true] at h
    exact ⟨Network.name_inj h.1, decimal_append_inj h.2.2⟩
  · exact absurd (congrArg (·[1]?) h) (by simp [statePath, inputPath])
  · exact absurd (congrArg (·[1]?) h) (by simp [statePath, journalPath])
  · exact absurd (congrArg (·[1]?) h) (by simp [inputPath, journalPath])

/-- The processes that work on some files are not influenced by those that work on others: whatever these do, are killed or not, and whatever is in
their files, those come to the same, and so do the files. -/
theorem C91_isolated {ops : StateOps σ} (mine : Path → Prop) (inside : Nat → Prop) [DecidablePred inside] {disk disk' : Disk}
    {jobs jobs' : List (Job σ)} {turns turns' : List (Nat × Turn)} (hfiles : ∀ path, mine path → disk path = disk' path)
    (hjobs : ∀ k, inside k → jobs[k]? = jobs'[k]?)
    (hin : ∀ (k : Nat) (job : Job σ), inside k → jobs[k]? = some job → WorksOn ops mine job)
    (hout : ∀ (k : Nat) (job : Job σ), ¬ inside k → jobs[k]? = some job → WorksOn ops (fun path => ¬ mine path) job)
    (hout' : ∀ (k : Nat) (job : Job σ), ¬ inside k → jobs'[k]? = some job → WorksOn ops (fun path => ¬ mine path) job)
    (hturns : turns.filter (fun t => inside t.1) = turns'.filter (fun t => inside t.1)) :
    (∀ path, mine path → (run ops disk jobs turns).1 path = (run ops disk' jobs' turns').1 path) ∧
    ∀ k, inside k → (run ops disk jobs turns).2[k]? = (run ops disk' jobs' turns').2[k]? := by
  have h1 := Alike.run (ops := ops) turns (disk := disk) (jobs := jobs) (disk' := disk') (jobs' := jobs') ⟨hfiles, hjobs, hin, hout⟩
  have h2 := Alike.run (ops := ops) turns' (disk := disk') (jobs := jobs') (disk' := disk') (jobs' := jobs')
    (inside := inside) (mine := mine) ⟨fun _ _ => rfl, fun _ _ => rfl, fun k j hk hj => hin k j hk (by rw [hjobs k hk]; exact hj), hout'⟩
  rw [hturns] at h1
  exact ⟨fun p hp => (h1.files p hp).trans (h2.files p hp).symm, fun k hk => (h1.jobs k hk).trans (h2.jobs k hk).symm⟩

/-- Processes that were started for one network are not influenced by those for another on the same data directory. -/
theorem C91_networks {ops : StateOps σ} (nets : Nat → Network) (network : Network) {disk : Disk} {jobs : List (Job σ)}
    (hjobs : ∀ (k : Nat) (job : Job σ), jobs[k]? = some job → StartsFor (nets k) job) (turns : List (Nat × Turn)) :
    (∀ path, OfNetwork network path →
      (run ops disk jobs turns).1 path = (run ops disk jobs (turns.filter fun t => nets t.1 = network)).1 path) ∧
    ∀ k, nets k = network → (run ops disk jobs turns).2[k]? = (run ops disk jobs (turns.filter fun t => nets t.1 = network)).2[k]? := by
  have hout : ∀ (k : Nat) (job : Job σ), ¬ nets k = network → jobs[k]? = some job → WorksOn ops (fun path => ¬ OfNetwork network path) job := by
    intro k job hk hj
    refine WorksOn.mono ?_ (StartsFor.works (hjobs k job hj))
    intro p hp hp'
    unfold OfNetwork at hp hp'
    rw [hp] at hp'
    exact hk (Network.name_inj (by simpa using hp'))
  refine C91_isolated (OfNetwork network) (fun k => nets k = network) (fun _ _ => rfl) (fun _ _ => rfl) ?_ hout hout ?_
  · intro k job hk hj
    exact hk ▸ StartsFor.works (hjobs k job hj)
  · rw [List.filter_filter]
    simp

/-! ## What the files hold -/

theorem good_start {ops : StateOps σ} {contents : Path → Bytes} {disk : Disk} {jobs : List (Job σ)}
    (hfiles : ∀ path content, disk path = some content → Holed (contents path) content) (hjobs : ∀ job ∈ jobs, Starts ops contents job) :
    Good ops contents (disk, jobs) :=
  ⟨fun _ j hj => Starts.ok (hjobs j (List.mem_of_getElem? hj)), hfiles⟩

/-- A file never holds a byte that is neither the right one nor a zero. -/
theorem C91_bytes {ops : StateOps σ} {contents : Path → Bytes} {disk : Disk} {jobs : List (Job σ)}
    (hfiles : ∀ path content, disk path = some content → Holed (contents path) content) (hjobs : ∀ job ∈ jobs, Starts ops contents job)
    (turns : List (Nat × Turn)) {path : Path} {content : Bytes} (h : (run ops disk jobs turns).1 path = some content) :
    Holed (contents path) content :=
  ((good_start hfiles hjobs).run turns).files path content h

/-- When all processes have come to their end, and none was killed, every file is complete. -/
theorem C91_settled {ops : StateOps σ} {contents : Path → Bytes} {disk : Disk} {jobs : List (Job σ)}
    (hfiles : ∀ path content, disk path = some content → content = contents path) (hjobs : ∀ job ∈ jobs, Starts ops contents job)
    (turns : List (Nat × Turn)) (hended : ∀ job ∈ (run ops disk jobs turns).2, Ended job) {path : Path} {content : Bytes}
    (h : (run ops disk jobs turns).1 path = some content) : content = contents path := by
  have hg := good_start (ops := ops) (fun p c hc => by rw [hfiles p c hc]; exact Holed.full _) hjobs
  have hd : Debt contents (disk, jobs) := fun p c hc i _ => .inl (by rw [hfiles p c hc])
  have hl := ((hg.run turns).files path content h).1
  refine List.ext_getElem? fun i => ?_
  by_cases hi : i < (contents path).length
  · rcases hd.run hg turns path content h i hi with h1 | ⟨k, j, hj, ho⟩
    · exact h1
    · have he := hended j (List.mem_of_getElem? hj)
      rcases ho with rfl | ⟨_, _, _, _, rfl, _⟩ <;> exact absurd he (by simp [Ended])
  · rw [List.getElem?_eq_none (by omega), List.getElem?_eq_none (by omega)]

/-- The input and the journal of a build that has come to its end are there. -/
theorem C91_built {ops : StateOps σ} {disk : Disk} {jobs : List (Job σ)} {k : Nat} {network : Network} {epoch : Nat} {input journal : Bytes}
    (hk : jobs[k]? = some (buildJob network epoch input journal)) (turns : List (Nat × Turn)) {job : Job σ}
    (hj : (run ops disk jobs turns).2[k]? = some job) (hended : Ended job) :
    (run ops disk jobs turns).1 (inputPath network epoch) ≠ none ∧ (run ops disk jobs turns).1 (journalPath network epoch) ≠ none := by
  have key : ∀ p, (p = inputPath network epoch ∨ p = journalPath network epoch) → (run ops disk jobs turns).1 p ≠ none := by
    intro p hp
    have := Made.run (ops := ops) (p := p) (disk := disk) (jobs := jobs) turns (k := k) (by
      intro j hj
      rw [hk] at hj; cases hj
      simp only [buildJob, Made]
      rcases hp with rfl | rfl <;> simp) job hj
    cases job <;> first | exact this | exact absurd hended (by simp [Ended])
  exact ⟨key _ (.inl rfl), key _ (.inr rfl)⟩

/-! ## What requests are answered with -/

/-- A request that is answered is answered with the right state, whatever others do at the same time, as long as the bytes of a state, with some of them
missing or zero, are not read as another state. -/
theorem C91_state {ops : StateOps σ} {contents : Path → Bytes} {chain : Nat → σ} {network : Network} {disk : Disk} {jobs : List (Job σ)}
    (hfiles : ∀ path content, disk path = some content → Holed (contents path) content) (hjobs : ∀ job ∈ jobs, Starts ops contents job)
    (hcontents : ∀ slot < 2 ^ 64, contents (statePath network slot) = ops.serialize (chain slot)) (hholes : NoWrongHoles ops chain)
    {k slot : Nat} (hslot : slot < 2 ^ 64) {answer : Option σ} (hanswer : ∀ state, answer = some state → state = chain slot)
    (hk : jobs[k]? = some (.look network slot answer)) (turns : List (Nat × Turn)) {result : Option σ}
    (h : (run ops disk jobs turns).2[k]? = some (.done result)) : result = some (chain slot) := by
  have := run_induct (ops := ops)
    (fun s => Good ops contents s ∧ ∀ j : Job σ, s.2[k]? = some j → Answers (statePath network slot) (chain slot) j) (by
      intro s t ⟨hg, ha⟩
      refine ⟨hg.turn t, ?_⟩
      intro j' hj'
      obtain ⟨j, hj, ⟨_, rfl⟩ | ⟨_, rfl⟩⟩ := turn_get hj'
      · exact ha _ hj
      · exact Answers.step t.2 (hg.jobs k j hj)
          (fun got s hh hs => hholes slot hslot got s (by rw [← hcontents slot hslot]; exact hh) hs) (ha j hj)) turns disk jobs
    ⟨good_start hfiles hjobs, by
      intro j hj
      rw [hk] at hj; cases hj
      exact ⟨rfl, hanswer⟩⟩
  exact this.2 _ h

/-- The file of a state that was there before is never changed, and a request for the state ends with what is in it, unless it is killed. -/
theorem C91_stored {ops : StateOps σ} {contents : Path → Bytes} {network : Network} {slot : Nat} {disk : Disk} {jobs : List (Job σ)}
    (hjobs : ∀ job ∈ jobs, Starts ops contents job) {full : Bytes} (hfile : disk (statePath network slot) = some full)
    (turns : List (Nat × Turn)) :
    (run ops disk jobs turns).1 (statePath network slot) = some full ∧
    ∀ {k : Nat} {answer : Option σ} {state : σ} {job : Job σ}, ops.deserialize full = some state →
      jobs[k]? = some (.look network slot answer) → (run ops disk jobs turns).2[k]? = some job → Ended job → job = .done (some state) := by
  have hspare : ∀ job ∈ jobs, Spares (statePath network slot) job := by
    intro job hj
    cases hjobs job hj with
    | request n s a _ => trivial
    | build n e => simp [buildJob, Spares, Call.path, statePath, inputPath, journalPath]
  have key := fun (Q : Job σ → Prop) (k : Nat)
      (hQ : ∀ (d : Disk) j t, d (statePath network slot) = some full → Q j → Q (j.step ops d t).2)
      (h0 : ∀ j, jobs[k]? = some j → Q j) => run_induct (ops := ops)
    (fun s => s.1 (statePath network slot) = some full ∧ (∀ (k : Nat) (j : Job σ), s.2[k]? = some j → Spares (statePath network slot) j) ∧
      ∀ j : Job σ, s.2[k]? = some j → Q j) (by
      intro s t ⟨hf, hs, hq⟩
      refine ⟨?_, ?_, ?_⟩
      · rcases turn_disk (ops := ops) (s := s) (t := t) with ⟨_, he⟩ | ⟨j, hj, he, _⟩
        · rw [he]; exact hf
        · rw [he, (Spares.step t.2 (by rw [hf]; simp) (hs _ j hj)).2]; exact hf
      · intro k j' hj'
        obtain ⟨j, hj, ⟨_, rfl⟩ | ⟨_, rfl⟩⟩ := turn_get hj'
        · exact hs _ _ hj
        · exact (Spares.step t.2 (by rw [hf]; simp) (hs _ j hj)).1
      · intro j' hj'
        obtain ⟨j, hj, ⟨_, rfl⟩ | ⟨_, rfl⟩⟩ := turn_get hj'
        · exact hq _ hj
        · exact hQ _ j t.2 hf (hq j hj)) turns disk jobs
    ⟨hfile, fun _ j hj => hspare j (List.mem_of_getElem? hj), h0⟩
  refine ⟨(key (fun _ => True) 0 (fun _ _ _ _ _ => trivial) (fun _ _ => trivial)).1, ?_⟩
  intro k answer state job hs hk hj he
  have := (key (Finds (statePath network slot) full state) k (fun d j t hf hq => Finds.step t hf hs hq) (by
    intro j hj
    rw [hk] at hj; cases hj
    rfl)).2.2 job hj
  cases job with
  | done r => exact congrArg _ this
  | failed => exact absurd this (by simp [Finds])
  | _ => exact absurd he (by simp [Ended])

/-- Every process comes to its end, or is killed, when it has had enough turns, whatever the others do. -/
theorem C91_ends {ops : StateOps σ} {contents : Path → Bytes} {disk : Disk} {jobs : List (Job σ)}
    (hfiles : ∀ path content, disk path = some content → Holed (contents path) content) (hjobs : ∀ job ∈ jobs, Starts ops contents job)
    (k : Nat) : ∃ enough, ∀ turns : List (Nat × Turn), enough ≤ turns.countP (·.1 == k) →
      ∀ job, (run ops disk jobs turns).2[k]? = some job → Ended job ∨ job = .killed := by
  refine ⟨match jobs[k]? with | some j => turnsLeft ops contents j | none => 0, ?_⟩
  intro turns hn job hj
  have := turnsLeft_run (contents := contents) k turns (good_start hfiles hjobs)
    (n := match jobs[k]? with | some j => turnsLeft ops contents j | none => 0) (by
      intro j hj; rw [hj]) job hj
  have h0 : turnsLeft ops contents job = 0 := by omega
  cases job with
  | done r => exact .inl trivial
  | failed => exact .inl trivial
  | killed => exact .inr rfl
  | look n s a => simp only [turnsLeft] at h0; omega
  | save n s => simp only [turnsLeft] at h0; omega
  | calls t r => simp only [turnsLeft] at h0; omega
  | read p g => simp only [turnsLeft] at h0; omega

/-- A request alone is answered. -/
theorem C91_alone {ops : StateOps σ} {network : Network} {slot : Nat} {disk : Disk} {state : σ} (hstate : ops.slot state = slot)
    (hfile : disk (statePath network slot) = none) (turns : List (Nat × Turn)) (hturns : ∀ t ∈ turns, t.2 ≠ .kill) {job : Job σ}
    (hj : (run ops disk [.look network slot (some state)] turns).2[0]? = some job) (hended : Ended job) : job = .done (some state) := by
  have key : ∀ (turns : List (Nat × Turn)), (∀ t ∈ turns, t.2 ≠ .kill) → ∀ (disk : Disk) (j : Job σ),
      (disk (statePath network slot) = none ∧ (j = .look network slot (some state) ∨ j = .save network state)) ∨
        (∃ todo, j = .calls todo (some state)) ∨ j = .done (some state) → ∀ job, (run ops disk [j] turns).2[0]? = some job → Ended job →
      job = .done (some state) := by
    intro turns
    induction turns with
    | nil =>
      intro _ disk j h job hj he
      rw [run_nil] at hj
      simp only [List.length_cons, List.length_nil, Nat.zero_add, Nat.lt_add_one, getElem?_pos, List.getElem_cons_zero, Option.some.injEq] at hj
      subst hj
      rcases h with ⟨_, rfl | rfl⟩ | ⟨_, rfl⟩ | rfl
      · exact absurd he (by simp [Ended])
      · exact absurd he (by simp [Ended])
      · exact absurd he (by simp [Ended])
      · rfl
    | cons t ts ih =>
      intro ht disk j h job hj he
      obtain ⟨i, t⟩ := t
      cases t with
      | kill => exact absurd rfl (ht _ List.mem_cons_self)
      | go n =>
        have ht' : ∀ t ∈ ts, t.2 ≠ .kill := fun t h => ht t (List.mem_cons_of_mem _ h)
        rw [run_cons] at hj
        cases i with
        | succ i => exact ih ht' disk j h job (by simpa [turn] using hj) he
        | zero =>
          simp only [turn, List.length_cons, List.length_nil, Nat.zero_add, Nat.lt_add_one, getElem?_pos, List.getElem_cons_zero,
            List.set_cons_zero] at hj
          refine ih ht' _ _ ?_ job hj he
          rcases h with ⟨hd, rfl | rfl⟩ | ⟨todo, rfl⟩ | rfl
          · simp only [Job.step, hd]
            exact .inl ⟨trivial, .inr trivial⟩
          · simp only [Job.step, hstate, hd]
            exact .inr (.inl ⟨_, rfl⟩)
          · cases todo with
            | nil => exact .inr (.inr rfl)
            | cons c todo =>
              cases c with
              | create q => exact .inr (.inl ⟨_, rfl⟩)
              | write q off data =>
                simp only [Job.step]
                split
                · exact .inr (.inl ⟨_, rfl⟩)
                · cases disk q <;> exact .inr (.inl ⟨_, rfl⟩)
          · exact .inr (.inr rfl)
  exact key turns hturns disk _ (.inl ⟨hfile, .inl rfl⟩) job hj hended

/-- Two requests for one state at the same time: one of them may fail, because the other has just stored the state. -/
theorem C91_conflict {ops : StateOps σ} {network : Network} {slot : Nat} {disk : Disk} {state : σ} (hstate : ops.slot state = slot)
    (hfile : disk (statePath network slot) = none) :
    ∃ turns : List (Nat × Turn), (∀ t ∈ turns, t.2 ≠ .kill) ∧
      (run ops disk [.look network slot (some state), .look network slot (some state)] turns).2 = [.done (some state), .failed] := by
  by_cases hb : ops.serialize state = []
  · refine ⟨[(0, .go 0), (1, .go 0), (0, .go 0), (0, .go 0), (1, .go 0), (0, .go 0), (0, .go 0)], by simp, ?_⟩
    simp [run, turn, Job.step, hfile, hstate, Disk.set, hb]
  · refine ⟨[(0, .go 0), (1, .go 0), (0, .go 0), (0, .go 0), (1, .go 0), (0, .go (ops.serialize state).length), (0, .go 0), (0, .go 0)],
      by simp, ?_⟩
    simp [run, turn, Job.step, hfile, hstate, Disk.set, hb]

/-- An order of the calls of two requests for one state; the second opens the file when the first has written one byte. -/
def holeTurns (length : Nat) : List (Nat × Turn) :=
  [(0, .go 0), (1, .go 0), (0, .go 0), (1, .go 0), (0, .go 0), (0, .go 1), (1, .go 0), (0, .go length), (0, .go 0), (0, .go 0), (1, .kill)]

theorem hole_run {ops : StateOps σ} {network : Network} {slot : Nat} {disk : Disk} {state : σ} (hstate : ops.slot state = slot)
    (hfile : disk (statePath network slot) = none) {byte : UInt8} {rest : Bytes} (hbytes : ops.serialize state = byte :: rest) (hrest : rest ≠ []) :
    (run ops disk [.look network slot (some state), .look network slot (some state)] (holeTurns rest.length)).2 = [.done (some state), .killed] ∧
    (run ops disk [.look network slot (some state), .look network slot (some state)] (holeTurns rest.length)).1 (statePath network slot) =
      some (0 :: rest) := by
  have hl : max 1 rest.length = rest.length := by
    have : rest.length ≠ 0 := by simpa using hrest
    omega
  simp [holeTurns, run, turn, Job.step, hfile, hstate, Disk.set, hbytes, hrest, overwrite, hl]

/-- Two requests for one state at the same time, of which one is answered and the other killed: the file may be left with a hole in it, which no request
mends. -/
theorem C91_hole {ops : StateOps σ} {contents : Path → Bytes} {network : Network} {slot : Nat} {disk : Disk} {state : σ}
    (hstate : ops.slot state = slot) (hfile : disk (statePath network slot) = none) {byte : UInt8} {rest : Bytes}
    (hbytes : ops.serialize state = byte :: rest) (hrest : rest ≠ []) :
    ∃ turns : List (Nat × Turn), ∃ disk' : Disk,
      run ops disk [.look network slot (some state), .look network slot (some state)] turns = (disk', [.done (some state), .killed]) ∧
      disk' (statePath network slot) = some (0 :: rest) ∧
      ∀ (jobs : List (Job σ)) (turns' : List (Nat × Turn)), (∀ job ∈ jobs, Starts ops contents job) →
        (run ops disk' jobs turns').1 (statePath network slot) = some (0 :: rest) := by
  have h := hole_run (ops := ops) hstate hfile hbytes hrest
  refine ⟨holeTurns rest.length, (run ops disk [.look network slot (some state), .look network slot (some state)] (holeTurns rest.length)).1,
    ?_, h.2, fun jobs turns' hjobs => (C91_stored hjobs h.2 turns').1⟩
  rw [← h.1]

/-! ## A concrete case: a state is a number, written as so many ones and an end mark -/

def unOps : StateOps Nat where
  slot := id
  genesisValidatorsRoot := fun _ => zeroRoot
  latestBlockHeader := fun s => ⟨s, 0, zeroRoot, zeroRoot, zeroRoot⟩
  hashTreeRoot := fun _ => zeroRoot
  serialize := fun s => List.replicate s 1 ++ [2]
  deserialize := fun b => if b = List.replicate (b.length - 1) 1 ++ [2] then some (b.length - 1) else none

/-- The states, the same for both networks, and for every epoch the same input and journal. -/
def unContents : Path → Bytes
  | [_, dir, file] =>
    if dir = "states".toList then (match slotOfName file with | some slot => unOps.serialize slot | none => [])
    else if dir = "inputs".toList then [1, 2, 3] else [4, 5]
  | _ => []

theorem unContents_state (network : Network) {slot : Nat} (h : slot < 2 ^ 64) :
    unContents (statePath network slot) = unOps.serialize slot := by
  simp only [unContents, statePath, if_true, slotOfName_stateFile h]

theorem unContents_input (network : Network) (epoch : Nat) : unContents (inputPath network epoch) = [1, 2, 3] := by
  simp only [unContents, inputPath]
  rw [if_neg (by decide)]
  simp

theorem unContents_journal (network : Network) (epoch : Nat) : unContents (journalPath network epoch) = [4, 5] := by
  simp only [unContents, journalPath]
  rw [if_neg (by decide), if_neg (by decide)]

theorem unNoWrongHoles : NoWrongHoles unOps id := by
  intro slot _ part s hh hs
  simp only [unOps] at hs hh
  split at hs
  · rename_i he
    cases hs
    have hpos : 0 < part.length := by rw [he]; simp
    have hlast : part[part.length - 1]? = some 2 := by
      rw [he]; simp
    rcases hh.2 (part.length - 1) (by omega) with h | h
    · rw [hlast] at h
      have hl := hh.1
      simp only [id, List.length_append, List.length_replicate, List.length_singleton] at hl
      by_cases h1 : part.length - 1 < slot
      · rw [List.getElem?_append_left (by simpa using h1), List.getElem?_replicate, id, if_pos h1] at h
        simp at h
      · simp only [id]; omega
    · rw [hlast] at h; simp at h
  · cases hs

/-- Two requests for the state of slot 5, a build for epoch 7 on the same network and a request on the other. -/
def unJobs : List (Job Nat) :=
  [.look .mainnet 5 (some 5), .look .mainnet 5 (some 5), buildJob .mainnet 7 [1, 2, 3] [4, 5], .look .sepolia 5 (some 5)]

theorem unJobs_start : ∀ job ∈ unJobs, Starts unOps unContents job := by
  have hr : ∀ network, Starts unOps unContents (.look network 5 (some 5)) := fun network =>
    .request network 5 (some 5) (by intro state h; cases h; exact (unContents_state network (by decide)).symm)
  intro job h
  simp only [unJobs, List.mem_cons, List.not_mem_nil, or_false] at h
  rcases h with rfl | rfl | rfl | rfl
  · exact hr _
  · exact hr _
  · have := Starts.build (ops := unOps) (contents := unContents) .mainnet 7
    rwa [unContents_input, unContents_journal] at this
  · exact hr _

/-- The networks of the processes. -/
def unNets (k : Nat) : Network := if k = 3 then .sepolia else .mainnet

theorem unJobs_nets : ∀ (k : Nat) (job : Job Nat), unJobs[k]? = some job → StartsFor (unNets k) job := by
  intro k job h
  rcases k with _ | _ | _ | _ | k
  · cases h; exact .request 5 _
  · cases h; exact .request 5 _
  · cases h; exact .build 7 _ _
  · cases h; exact .request 5 _
  · simp [unJobs] at h

/-- All of them come to their end; the second request fails. -/
def unTurns : List (Nat × Turn) :=
  [(0, .go 0), (1, .go 0), (2, .go 0), (0, .go 0), (0, .go 0), (1, .go 0), (2, .go 0), (0, .go 6), (0, .go 0), (0, .go 0), (3, .go 0), (3, .go 0),
    (3, .go 0), (2, .go 3), (2, .go 0), (2, .go 2), (2, .go 0), (2, .go 0), (3, .go 4), (3, .go 4), (3, .go 0), (3, .go 0)]

theorem unRun : (run unOps (fun _ => none) unJobs unTurns).2 = [.done (some 5), .failed, .done none, .done (some 5)] := by
  with_unfolding_all rfl

example : ∃ content, (run unOps (fun _ => none) unJobs unTurns).1 (statePath .mainnet 5) = some content ∧ content = [1, 1, 1, 1, 1, 2] := by
  refine ⟨_, ?_, rfl⟩
  with_unfolding_all rfl

example {path : Path} {content : Bytes} (h : (run unOps (fun _ => none) unJobs unTurns).1 path = some content) : content = unContents path :=
  C91_settled (by simp) unJobs_start unTurns (by rw [unRun]; simp [Ended]) h

example : (run unOps (fun _ => none) unJobs unTurns).1 (inputPath .mainnet 7) ≠ none :=
  (C91_built (k := 2) (job := .done none) rfl unTurns (by rw [unRun]; rfl) trivial).1

example (turns : List (Nat × Turn)) {path : Path} {content : Bytes} (h : (run unOps (fun _ => none) unJobs turns).1 path = some content) :
    Holed (unContents path) content := C91_bytes (by simp) unJobs_start turns h

example (turns : List (Nat × Turn)) :
    (run unOps (fun _ => none) unJobs turns).2[3]? =
      (run unOps (fun _ => none) unJobs (turns.filter fun t => unNets t.1 = .sepolia)).2[3]? :=
  (C91_networks unNets .sepolia unJobs_nets turns).2 3 rfl

example (turns : List (Nat × Turn)) {result : Option Nat} (h : (run unOps (fun _ => none) unJobs turns).2[1]? = some (.done result)) :
    result = some 5 :=
  C91_state (chain := id) (by simp) unJobs_start (fun slot h => unContents_state .mainnet h) unNoWrongHoles (by decide) (by simp) rfl turns h

example (turns : List (Nat × Turn)) {job : Job Nat}
    (h : (run unOps (fun path => if path = statePath .mainnet 5 then some [1, 1, 1, 1, 1, 2] else none) unJobs turns).2[1]? = some job)
    (he : Ended job) : job = .done (some 5) :=
  (C91_stored (full := [1, 1, 1, 1, 1, 2]) unJobs_start (by simp) turns).2 rfl rfl h he

example : ∃ enough, ∀ turns : List (Nat × Turn), enough ≤ turns.countP (·.1 == 2) →
    ∀ job, (run unOps (fun _ => none) unJobs turns).2[2]? = some job → Ended job ∨ job = .killed := C91_ends (by simp) unJobs_start 2

example (turns : List (Nat × Turn)) (hturns : ∀ t ∈ turns, t.2 ≠ .kill) {job : Job Nat}
    (h : (run unOps (fun _ => none) [.look .mainnet 5 (some 5)] turns).2[0]? = some job) (he : Ended job) : job = .done (some 5) :=
  C91_alone rfl rfl turns hturns h he

example : ∃ turns : List (Nat × Turn), (∀ t ∈ turns, t.2 ≠ .kill) ∧
    (run unOps (fun _ => none) [.look .mainnet 5 (some 5), .look .mainnet 5 (some 5)] turns).2 = [.done (some 5), .failed] :=
  C91_conflict rfl rfl

/-- In a format as that of SSZ, where any bytes of the right length are a state, the file with the hole is read as another state. -/
example : ∃ turns : List (Nat × Turn), ∃ disk' : Disk,
    run pxOpsList (fun _ => none) [.look .mainnet 5 (some (5, [7, 7, 7])), .look .mainnet 5 (some (5, [7, 7, 7]))] turns =
      (disk', [.done (some (5, [7, 7, 7])), .killed]) ∧
    ∃ content, disk' (statePath .mainnet 5) = some content ∧ pxOpsList.deserialize content = some (0, [7, 7, 7]) := by
  obtain ⟨turns, disk', h1, h2, _⟩ := C91_hole (ops := pxOpsList) (contents := fun _ => []) (network := .mainnet) (slot := 5)
    (disk := fun _ => none) (state := (5, [7, 7, 7])) rfl rfl (byte := 5) (rest := [0, 0, 0, 0, 0, 0, 0, 7, 7, 7]) (by decide) (by decide)
  exact ⟨turns, disk', h1, _, h2, by decide⟩

end Signal
