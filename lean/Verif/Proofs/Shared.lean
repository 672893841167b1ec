import Verif.Spec.Shared

/-! Helper lemmas: processes that work on one data directory. -/

namespace Signal
open Spec Shared

variable {σ : Type}

theorem overwrite_get (c : Bytes) (off : Nat) (d : Bytes) (i : Nat) :
    (overwrite c off d)[i]? =
      if i < off then (if i < c.length then c[i]? else some 0)
      else if i < off + d.length then d[i - off]? else c[i]? := by
  unfold overwrite
  simp only [List.append_assoc, List.getElem?_append, List.length_take, List.length_replicate, List.getElem?_take, List.getElem?_drop,
    List.getElem?_replicate]
  by_cases h1 : i < off
  · by_cases h2 : i < c.length
    · rw [if_pos (by omega)]; simp [h1, h2]
    · rw [if_neg (by omega), if_pos (by omega)]; simp [h1, h2]; omega
  · rw [if_neg (by omega), if_neg (by omega)]
    simp only [h1, if_false]
    by_cases h3 : i < off + d.length
    · rw [if_pos (by omega), if_pos h3]
      congr 1
      omega
    · rw [if_neg (by omega), if_neg h3]
      congr 1
      omega

theorem overwrite_length (c : Bytes) (off : Nat) (d : Bytes) : (overwrite c off d).length = max c.length (off + d.length) := by
  unfold overwrite
  simp only [List.length_append, List.length_take, List.length_replicate, List.length_drop]
  omega

theorem Holed.full (full : Bytes) : Holed full full := ⟨Nat.le_refl _, fun _ _ => .inl rfl⟩

theorem Holed.nil (full : Bytes) : Holed full [] := ⟨Nat.zero_le _, fun i h => by simp at h⟩

theorem Holed.overwrite {full c : Bytes} (h : Holed full c) {off k : Nat} (hoff : off ≤ full.length) :
    Holed full (overwrite c off ((full.drop off).take k)) := by
  have hl : ((full.drop off).take k).length = min k (full.length - off) := by simp
  refine ⟨by rw [overwrite_length, hl]; have := h.1; omega, ?_⟩
  intro i hi
  rw [overwrite_length, hl] at hi
  rw [overwrite_get, hl]
  by_cases h1 : i < off
  · rw [if_pos h1]
    split
    · rename_i h2; exact h.2 i h2
    · exact .inr rfl
  · rw [if_neg h1]
    split
    · left
      rename_i h2
      rw [List.getElem?_take, if_pos (by omega), List.getElem?_drop]
      congr 1
      omega
    · exact h.2 i (by omega)

theorem Holed.append {full c got : Bytes} (hc : Holed full c) (hg : Holed full got) (hlt : got.length < c.length) (k : Nat) :
    Holed full (got ++ (c.drop got.length).take k) := by
  have hl : ((c.drop got.length).take k).length = min k (c.length - got.length) := by simp
  refine ⟨by rw [List.length_append, hl]; have := hc.1; omega, ?_⟩
  intro i hi
  rw [List.length_append, hl] at hi
  rw [List.getElem?_append]
  split
  · rename_i h; exact hg.2 i h
  · rename_i h
    rw [List.getElem?_take, if_pos (by omega), List.getElem?_drop, show got.length + (i - got.length) = i by omega]
    exact hc.2 i (by omega)

/-- The calls to come are in order: what is created is written afterwards, and what is written is what belongs there. -/
def TodoOk (contents : Path → Bytes) : List Call → Prop
  | [] => True
  | .create p :: t => .write p 0 (contents p) ∈ t ∧ TodoOk contents t
  | .write p off d :: t => (d = (contents p).drop off ∧ off ≤ (contents p).length) ∧ TodoOk contents t

/-- A process does what it should. -/
def JobOk (ops : StateOps σ) (contents : Path → Bytes) : Job σ → Prop
  | .look n _ a => ∀ state, a = some state → ops.serialize state = contents (statePath n (ops.slot state))
  | .save n state => ops.serialize state = contents (statePath n (ops.slot state))
  | .calls todo _ => TodoOk contents todo
  | .read p got => Holed (contents p) got
  | _ => True

theorem Starts.ok {ops : StateOps σ} {contents : Path → Bytes} {j : Job σ} (h : Starts ops contents j) : JobOk ops contents j := by
  cases h with
  | request n s a h => exact h
  | build n e => simp [buildJob, JobOk, TodoOk]

/-- The process will still write position `i` of the file, or it was killed. -/
def Owes (path : Path) (i : Nat) (j : Job σ) : Prop :=
  j = .killed ∨ ∃ todo r off data, j = .calls todo r ∧ .write path off data ∈ todo ∧ off ≤ i

/-- What is left to do about position `i` of file `p` after a turn of a process. -/
def Left (contents : Path → Bytes) (disk disk' : Disk) (j j' : Job σ) : Prop :=
  ∀ p c, disk' p = some c → ∀ i < (contents p).length, c[i]? = (contents p)[i]? ∨ Owes p i j' ∨
    (¬ Owes p i j ∧ ∃ c', disk p = some c' ∧ c'[i]? ≠ (contents p)[i]?)

theorem Left.same {contents : Path → Bytes} {disk : Disk} {j j' : Job σ}
    (h : ∀ p, ∀ i < (contents p).length, Owes p i j → Owes p i j') : Left contents disk disk j j' := by
  intro p c hc i hi
  by_cases h1 : c[i]? = (contents p)[i]?
  · exact .inl h1
  · by_cases h2 : Owes p i j
    · exact .inr (.inl (h p i hi h2))
    · exact .inr (.inr ⟨h2, c, hc, h1⟩)

theorem Left.set {contents : Path → Bytes} {disk : Disk} {path : Path} {new : Bytes} {j j' : Job σ}
    (h : ∀ p, p ≠ path → ∀ i < (contents p).length, Owes p i j → Owes p i j')
    (h' : ∀ i < (contents path).length, new[i]? = (contents path)[i]? ∨ Owes path i j' ∨
      (¬ Owes path i j ∧ ∃ c', disk path = some c' ∧ c'[i]? ≠ (contents path)[i]?)) :
    Left contents disk (disk.set path new) j j' := by
  intro p c hc i hi
  by_cases hp : p = path
  · subst hp
    simp only [Disk.set, if_true, Option.some.injEq] at hc
    subst hc
    exact h' i hi
  · simp only [Disk.set, hp, if_false] at hc
    exact Left.same (disk := disk) (j := j) (j' := j') (contents := fun q => if q = p then contents q else [])
      (by intro q k hk hq
          by_cases hqp : q = p
          · subst hqp; simp only [if_true] at hk; exact h q hp k hk hq
          · simp [hqp] at hk) p c hc i (by simpa using hi) |> (by simpa using ·)

theorem holed_set {contents : Path → Bytes} {disk : Disk} {path : Path} {new : Bytes} (hd : ∀ p c, disk p = some c → Holed (contents p) c)
    (hn : Holed (contents path) new) : ∀ p c, disk.set path new p = some c → Holed (contents p) c := by
  intro p c hc
  by_cases hp : p = path
  · subst hp
    simp only [Disk.set, if_true, Option.some.injEq] at hc
    exact hc ▸ hn
  · simp only [Disk.set, hp, if_false] at hc
    exact hd p c hc

/-- One turn of a process: it goes on as it should, the files hold what they should, apart from holes, and what it had to write is written, or still to be
written. -/
theorem step_ok {ops : StateOps σ} {contents : Path → Bytes} {disk : Disk} {j : Job σ} (t : Turn) (hj : JobOk ops contents j)
    (hd : ∀ p c, disk p = some c → Holed (contents p) c) :
    JobOk ops contents (j.step ops disk t).2 ∧
    (∀ p c, (j.step ops disk t).1 p = some c → Holed (contents p) c) ∧
    Left contents disk (j.step ops disk t).1 j (j.step ops disk t).2 := by
  have kill : ∀ j : Job σ, JobOk ops contents (.killed : Job σ) ∧ (∀ p c, disk p = some c → Holed (contents p) c) ∧
      Left contents disk disk j .killed := fun j => ⟨trivial, hd, Left.same fun _ _ _ _ => .inl rfl⟩
  have none' : ∀ j j' : Job σ, JobOk ops contents j' → (∀ p i, ¬ Owes p i j) → JobOk ops contents j' ∧
      (∀ p c, disk p = some c → Holed (contents p) c) ∧ Left contents disk disk j j' :=
    fun j j' h1 h2 => ⟨h1, hd, Left.same fun p i _ h => absurd h (h2 p i)⟩
  cases j with
  | done s => exact none' _ _ trivial (by intro p i h; rcases h with h | ⟨_, _, _, _, h, _⟩ <;> cases h)
  | failed => exact none' _ _ trivial (by intro p i h; rcases h with h | ⟨_, _, _, _, h, _⟩ <;> cases h)
  | killed => cases t <;> exact kill _
  | look n s a =>
    cases t with
    | kill => exact kill _
    | go k =>
      have hn : ∀ p i, ¬ Owes p i (.look n s a : Job σ) := by intro p i h; rcases h with h | ⟨_, _, _, _, h, _⟩ <;> cases h
      simp only [Job.step]
      cases hp : disk (statePath n s) with
      | some c => exact none' _ _ (Holed.nil _) hn
      | none =>
        cases a with
        | none => exact none' _ _ trivial hn
        | some st => exact none' _ _ (hj st rfl) hn
  | save n st =>
    cases t with
    | kill => exact kill _
    | go k =>
      have hn : ∀ p i, ¬ Owes p i (.save n st : Job σ) := by intro p i h; rcases h with h | ⟨_, _, _, _, h, _⟩ <;> cases h
      simp only [Job.step]
      cases hp : disk (statePath n (ops.slot st)) with
      | some c => exact none' _ _ trivial hn
      | none =>
        refine none' _ _ ?_ hn
        simp only [JobOk] at hj
        simp [JobOk, TodoOk, hj]
  | read p got =>
    cases t with
    | kill => exact kill _
    | go k =>
      have hn : ∀ q i, ¬ Owes q i (.read p got : Job σ) := by intro p i h; rcases h with h | ⟨_, _, _, _, h, _⟩ <;> cases h
      simp only [Job.step]
      cases hp : disk p with
      | none => exact none' _ _ trivial hn
      | some c =>
        simp only
        by_cases hl : c.length ≤ got.length
        · rw [if_pos hl]
          cases ops.deserialize got <;> exact none' _ _ trivial hn
        · rw [if_neg hl]
          exact none' _ _ (Holed.append (hd p c hp) hj (by omega) _) hn
  | calls todo r =>
    cases t with
    | kill => cases todo with
      | nil => exact kill _
      | cons c t => cases c <;> exact kill _
    | go k =>
      cases todo with
      | nil => exact none' _ _ trivial (by
          intro p i h
          rcases h with h | ⟨_, _, _, _, h, h', _⟩
          · cases h
          · cases h; simp at h')
      | cons call t =>
        cases call with
        | create path =>
          simp only [Job.step]
          simp only [JobOk, TodoOk] at hj
          refine ⟨hj.2, holed_set hd (Holed.nil _), Left.set ?_ ?_⟩
          · intro p hp i _ h
            rcases h with h | ⟨_, _, off, data, h, h', h''⟩
            · cases h
            · cases h
              rcases List.mem_cons.1 h' with h' | h'
              · cases h'
              · exact .inr ⟨_, _, off, data, rfl, h', h''⟩
          · intro i _
            exact .inr (.inl (.inr ⟨_, _, _, _, rfl, hj.1, Nat.zero_le _⟩))
        | write path off data =>
          simp only [Job.step]
          simp only [JobOk, TodoOk] at hj
          obtain ⟨⟨hdata, hoff⟩, ht⟩ := hj
          by_cases he : data = []
          · rw [if_pos he]
            refine ⟨ht, hd, Left.same ?_⟩
            intro p i hi h
            rcases h with h | ⟨_, _, off', data', h, h', h''⟩
            · cases h
            · cases h
              rcases List.mem_cons.1 h' with h' | h'
              · cases h'
                rw [hdata, List.drop_eq_nil_iff] at he
                omega
              · exact .inr ⟨_, _, off', data', rfl, h', h''⟩
          · rw [if_neg he]
            have hl : (data.take (max 1 k)).length = min (max 1 k) ((contents path).length - off) := by simp [hdata]
            have hok : JobOk ops contents
                (.calls (.write path (off + (data.take (max 1 k)).length) (data.drop (max 1 k)) :: t) r : Job σ) := by
              simp only [JobOk, TodoOk]
              refine ⟨⟨?_, by omega⟩, ht⟩
              rw [hl, hdata, List.drop_drop]
              by_cases hk : max 1 k ≤ (contents path).length - off
              · rw [Nat.min_eq_left hk]
              · rw [List.drop_eq_nil_of_le (by omega), List.drop_eq_nil_of_le (by omega)]
            have hother : ∀ p, p ≠ path → ∀ i < (contents p).length, Owes p i (.calls (.write path off data :: t) r : Job σ) →
                Owes p i (.calls (.write path (off + (data.take (max 1 k)).length) (data.drop (max 1 k)) :: t) r : Job σ) := by
              intro p hp i _ h
              rcases h with h | ⟨_, _, off', data', h, h', h''⟩
              · cases h
              · cases h
                rcases List.mem_cons.1 h' with h' | h'
                · cases h'; exact absurd rfl hp
                · exact .inr ⟨_, _, off', data', rfl, List.mem_cons_of_mem _ h', h''⟩
            cases hp : disk path with
            | none =>
              refine ⟨hok, hd, ?_⟩
              intro p c hc i hi
              replace hc : disk p = some c := hc
              have hpp : p ≠ path := by intro h; rw [h, hp] at hc; cases hc
              exact Left.same (disk := disk) (contents := fun q => if q = p then contents q else [])
                (by intro q k hk hq
                    by_cases hqp : q = p
                    · subst hqp; simp only [if_true] at hk; exact hother q hpp k hk hq
                    · simp [hqp] at hk) p c hc i (by simpa using hi) |> (by simpa using ·)
            | some content =>
            have hc : Holed (contents path) content := hd path content hp
            refine ⟨hok, holed_set hd (by rw [hdata]; exact Holed.overwrite hc hoff), Left.set hother ?_⟩
            · intro i hi
              by_cases h1 : off ≤ i
              · by_cases h2 : i < off + (data.take (max 1 k)).length
                · left
                  rw [overwrite_get, if_neg (by omega), if_pos h2, List.getElem?_take, if_pos (by omega), hdata, List.getElem?_drop]
                  congr 1
                  omega
                · right; left
                  exact .inr ⟨_, _, _, _, rfl, List.mem_cons_self, by omega⟩
              · by_cases h3 : content[i]? = (contents path)[i]?
                · left
                  have : i < content.length := by
                    rw [List.getElem?_eq_getElem hi] at h3
                    exact (List.getElem?_eq_some_iff.1 h3).1
                  rw [overwrite_get, if_pos (by omega), if_pos this, h3]
                · right
                  by_cases h4 : Owes path i (.calls (.write path off data :: t) r : Job σ)
                  · left
                    rcases h4 with h | ⟨_, _, off', data', h, h', h''⟩
                    · cases h
                    · cases h
                      rcases List.mem_cons.1 h' with h' | h'
                      · cases h'; omega
                      · exact .inr ⟨_, _, off', data', rfl, List.mem_cons_of_mem _ h', h''⟩
                  · exact .inr ⟨h4, content, hp, h3⟩

/-! ## Runs -/

theorem run_nil (ops : StateOps σ) (disk : Disk) (jobs : List (Job σ)) : run ops disk jobs [] = (disk, jobs) := rfl

theorem run_cons (ops : StateOps σ) (disk : Disk) (jobs : List (Job σ)) (t : Nat × Turn) (ts : List (Nat × Turn)) :
    run ops disk jobs (t :: ts) = run ops (turn ops (disk, jobs) t).1 (turn ops (disk, jobs) t).2 ts := rfl

/-- What one turn does to the processes. -/
theorem turn_get {ops : StateOps σ} {s : Disk × List (Job σ)} {t : Nat × Turn} {k : Nat} {j' : Job σ} (h : (turn ops s t).2[k]? = some j') :
    ∃ j, s.2[k]? = some j ∧ ((k ≠ t.1 ∧ j' = j) ∨ (k = t.1 ∧ j' = (j.step ops s.1 t.2).2)) := by
  unfold turn at h
  cases hj : s.2[t.1]? with
  | none =>
    rw [hj] at h
    refine ⟨j', h, .inl ⟨?_, rfl⟩⟩
    rintro rfl
    simp only at h
    rw [hj] at h; cases h
  | some job =>
    rw [hj] at h
    simp only [List.getElem?_set] at h
    by_cases hk : t.1 = k
    · rw [if_pos hk, if_pos (by exact (List.getElem?_eq_some_iff.1 hj).1)] at h
      cases h
      exact ⟨job, by rw [← hk]; exact hj, .inr ⟨hk.symm, rfl⟩⟩
    · rw [if_neg hk] at h
      exact ⟨j', h, .inl ⟨fun e => hk e.symm, rfl⟩⟩

theorem turn_disk {ops : StateOps σ} {s : Disk × List (Job σ)} {t : Nat × Turn} :
    (s.2[t.1]? = none ∧ turn ops s t = s) ∨
      ∃ j, s.2[t.1]? = some j ∧ (turn ops s t).1 = (j.step ops s.1 t.2).1 ∧ (turn ops s t).2[t.1]? = some (j.step ops s.1 t.2).2 := by
  unfold turn
  cases hj : s.2[t.1]? with
  | none => exact .inl ⟨rfl, rfl⟩
  | some job => exact .inr ⟨job, rfl, rfl, by simp [(List.getElem?_eq_some_iff.1 hj).1]⟩

theorem turn_other {ops : StateOps σ} {s : Disk × List (Job σ)} {t : Nat × Turn} {k : Nat} (h : k ≠ t.1) : (turn ops s t).2[k]? = s.2[k]? := by
  unfold turn
  cases hj : s.2[t.1]? with
  | none => rfl
  | some job => simp [h.symm]

/-- All processes go on as they should, and the files hold what they should, apart from holes. -/
structure Good (ops : StateOps σ) (contents : Path → Bytes) (s : Disk × List (Job σ)) : Prop where
  jobs : ∀ (k : Nat) (j : Job σ), s.2[k]? = some j → JobOk ops contents j
  files : ∀ p c, s.1 p = some c → Holed (contents p) c

theorem Good.turn {ops : StateOps σ} {contents : Path → Bytes} {s : Disk × List (Job σ)} (h : Good ops contents s) (t : Nat × Turn) :
    Good ops contents (turn ops s t) := by
  constructor
  · intro k j' hk
    obtain ⟨j, hj, ⟨_, rfl⟩ | ⟨_, rfl⟩⟩ := turn_get hk
    · exact h.jobs k _ hj
    · exact (step_ok t.2 (h.jobs k j hj) h.files).1
  · rcases turn_disk (ops := ops) (s := s) (t := t) with ⟨_, he⟩ | ⟨j, hj, he, _⟩
    · rw [he]; exact h.files
    · rw [he]; exact (step_ok t.2 (h.jobs _ j hj) h.files).2.1

/-- What is not right is still to be written. -/
def Debt (contents : Path → Bytes) (s : Disk × List (Job σ)) : Prop :=
  ∀ p c, s.1 p = some c → ∀ i < (contents p).length, c[i]? = (contents p)[i]? ∨ ∃ (k : Nat) (j : Job σ), s.2[k]? = some j ∧ Owes p i j

theorem Debt.turn {ops : StateOps σ} {contents : Path → Bytes} {s : Disk × List (Job σ)} (hg : Good ops contents s) (h : Debt contents s)
    (t : Nat × Turn) : Debt contents (turn ops s t) := by
  rcases turn_disk (ops := ops) (s := s) (t := t) with ⟨_, he⟩ | ⟨j, hj, he, hj'⟩
  · rw [he]; exact h
  · intro p c hc i hi
    rw [he] at hc
    rcases (step_ok t.2 (hg.jobs _ j hj) hg.files).2.2 p c hc i hi with h1 | h1 | ⟨h1, c', h2, h3⟩
    · exact .inl h1
    · exact .inr ⟨t.1, _, hj', h1⟩
    · rcases h p c' h2 i hi with h4 | ⟨k, j2, h4, h5⟩
      · exact absurd h4 h3
      · right
        by_cases hk : k = t.1
        · subst hk
          rw [hj] at h4; cases h4
          exact absurd h5 h1
        · exact ⟨k, j2, by rw [turn_other hk]; exact h4, h5⟩

/-- What holds of the start and is kept by every turn holds of every run. -/
theorem run_induct {ops : StateOps σ} (P : Disk × List (Job σ) → Prop) (step : ∀ s t, P s → P (turn ops s t)) (turns : List (Nat × Turn)) :
    ∀ (disk : Disk) (jobs : List (Job σ)), P (disk, jobs) → P (run ops disk jobs turns) := by
  induction turns with
  | nil => intro d j h; exact h
  | cons t ts ih => intro d j h; rw [run_cons]; exact ih _ _ (step _ t h)

theorem Good.run {ops : StateOps σ} {contents : Path → Bytes} {disk : Disk} {jobs : List (Job σ)} (h : Good ops contents (disk, jobs))
    (turns : List (Nat × Turn)) : Good ops contents (run ops disk jobs turns) :=
  run_induct (Good ops contents) (fun _ t h => h.turn t) turns disk jobs h

theorem Debt.run {ops : StateOps σ} {contents : Path → Bytes} {disk : Disk} {jobs : List (Job σ)} (h : Good ops contents (disk, jobs))
    (hd : Debt contents (disk, jobs)) (turns : List (Nat × Turn)) : Debt contents (run ops disk jobs turns) :=
  (run_induct (fun s => Good ops contents s ∧ Debt contents s) (fun _ t h => ⟨h.1.turn t, Debt.turn h.1 h.2 t⟩) turns disk jobs ⟨h, hd⟩).2

/-! ## Files never vanish -/

theorem step_keeps {ops : StateOps σ} {disk : Disk} {j : Job σ} {t : Turn} {p : Path} (h : disk p ≠ none) : (j.step ops disk t).1 p ≠ none := by
  have hset : ∀ q c, disk.set q c p ≠ none := by
    intro q c; unfold Disk.set; split
    · simp
    · exact h
  unfold Job.step
  repeat' split
  all_goals first | exact h | exact hset _ _ | (dsimp only; split <;> first | exact h | exact hset _ _)

/-- A process that writes a file has it still to create, or it is there. -/
def Made (p : Path) (disk : Disk) : Job σ → Prop
  | .calls todo _ => .create p ∈ todo ∨ disk p ≠ none
  | .killed => True
  | _ => disk p ≠ none

theorem Made.mono {p : Path} {disk disk' : Disk} (h : disk p ≠ none → disk' p ≠ none) {j : Job σ} (hm : Made p disk j) : Made p disk' j := by
  cases j <;> simp only [Made] at *
  all_goals first | exact h hm | exact hm.imp id h

theorem Made.step {ops : StateOps σ} {p : Path} {disk : Disk} {j : Job σ} (t : Turn) (hm : Made p disk j) :
    Made p (j.step ops disk t).1 (j.step ops disk t).2 := by
  by_cases hp : disk p = none
  · cases j with
    | calls todo r =>
      simp only [Made, hp, ne_eq, not_true, or_false] at hm
      cases t with
      | kill => cases todo with
        | nil => trivial
        | cons c t => cases c <;> trivial
      | go k =>
        cases todo with
        | nil => simp at hm
        | cons call t =>
          cases call with
          | create q =>
            simp only [Job.step, Made]
            rcases List.mem_cons.1 hm with h | h
            · cases h; right; simp [Disk.set]
            · exact .inl h
          | write q off data =>
            have ht : Call.create p ∈ t := by simpa using hm
            simp only [Job.step]
            by_cases he : data = []
            · rw [if_pos he]; exact .inl ht
            · rw [if_neg he]
              cases disk q <;> exact .inl (List.mem_cons_of_mem _ ht)
    | killed => cases t <;> trivial
    | _ => exact absurd hp hm
  · have := step_keeps (ops := ops) (j := j) (t := t) hp
    generalize (j.step ops disk t).2 = j'
    cases j' <;> simp only [Made]
    all_goals first | exact this | exact .inr this

theorem Made.run {ops : StateOps σ} {p : Path} {disk : Disk} {jobs : List (Job σ)} (turns : List (Nat × Turn)) {k : Nat}
    (h : ∀ j, jobs[k]? = some j → Made p disk j) : ∀ j, (run ops disk jobs turns).2[k]? = some j → Made p (run ops disk jobs turns).1 j := by
  refine run_induct (fun s => ∀ j, s.2[k]? = some j → Made p s.1 j) ?_ turns disk jobs h
  intro s t h j' hj'
  rcases turn_disk (ops := ops) (s := s) (t := t) with ⟨_, he⟩ | ⟨j0, hj0, he, _⟩
  · rw [he] at hj' ⊢; exact h j' hj'
  · obtain ⟨j, hj, ⟨_, rfl⟩ | ⟨hk, rfl⟩⟩ := turn_get hj'
    · refine Made.mono ?_ (h _ hj)
      intro hp
      rw [he]; exact step_keeps hp
    · rw [← hk, hj] at hj0; cases hj0
      rw [he]; exact Made.step _ (h _ hj)

/-! ## What a request is answered with -/

/-- The request is answered with `state`, if at all. -/
def Answers (path : Path) (state : σ) : Job σ → Prop
  | .look n s a => statePath n s = path ∧ ∀ st, a = some st → st = state
  | .save _ st => st = state
  | .calls _ r => r = some state
  | .read p _ => p = path
  | .done r => r = some state
  | _ => True

theorem Answers.step {ops : StateOps σ} {contents : Path → Bytes} {disk : Disk} {j : Job σ} {path : Path} {state : σ} (t : Turn)
    (hj : JobOk ops contents j) (hread : ∀ got s, Holed (contents path) got → ops.deserialize got = some s → s = state)
    (h : Answers path state j) : Answers path state (j.step ops disk t).2 := by
  cases j with
  | done s => exact h
  | failed => exact h
  | killed => cases t <;> trivial
  | look n s a =>
    cases t with
    | kill => trivial
    | go k =>
      simp only [Job.step]
      cases disk (statePath n s) with
      | some c => exact h.1
      | none =>
        cases a with
        | none => trivial
        | some st => exact h.2 st rfl
  | save n st =>
    cases t with
    | kill => trivial
    | go k =>
      simp only [Job.step]
      cases disk (statePath n (ops.slot st)) with
      | some c => trivial
      | none => simpa [Answers] using h
  | read p got =>
    cases t with
    | kill => trivial
    | go k =>
      simp only [Answers] at h
      subst h
      simp only [Job.step]
      cases disk p with
      | none => trivial
      | some c =>
        simp only
        split
        · cases hd : ops.deserialize got with
          | none => trivial
          | some s => simp only [Answers]; rw [hread got s hj hd]
        · rfl
  | calls todo r =>
    cases t with
    | kill => cases todo with
      | nil => trivial
      | cons c t => cases c <;> trivial
    | go k =>
      cases todo with
      | nil => exact h
      | cons c t =>
        cases c with
        | create q => exact h
        | write q off data =>
          simp only [Job.step]
          split
          · exact h
          · cases disk q <;> exact h

/-! ## A file that is there before all requests -/

/-- The process will not touch the file. -/
def Spares (path : Path) : Job σ → Prop
  | .calls todo _ => ∀ call ∈ todo, call.path ≠ path
  | _ => True

theorem Spares.step {ops : StateOps σ} {disk : Disk} {j : Job σ} {path : Path} (t : Turn) (hp : disk path ≠ none)
    (h : Spares path j) : Spares path (j.step ops disk t).2 ∧ (j.step ops disk t).1 path = disk path := by
  cases j with
  | done s => exact ⟨trivial, rfl⟩
  | failed => exact ⟨trivial, rfl⟩
  | killed => cases t <;> exact ⟨trivial, rfl⟩
  | look n s a =>
    cases t with
    | kill => exact ⟨trivial, rfl⟩
    | go k =>
      simp only [Job.step]
      cases disk (statePath n s) with
      | some c => exact ⟨trivial, rfl⟩
      | none => cases a <;> exact ⟨trivial, rfl⟩
  | save n st =>
    cases t with
    | kill => exact ⟨trivial, rfl⟩
    | go k =>
      simp only [Job.step]
      cases hd : disk (statePath n (ops.slot st)) with
      | some c => exact ⟨trivial, rfl⟩
      | none =>
        have : statePath n (ops.slot st) ≠ path := by rintro rfl; exact hp hd
        simp [Spares, Call.path, this]
  | read p got =>
    cases t with
    | kill => exact ⟨trivial, rfl⟩
    | go k =>
      simp only [Job.step]
      cases disk p with
      | none => exact ⟨trivial, rfl⟩
      | some c =>
        simp only
        split
        · cases ops.deserialize got <;> exact ⟨trivial, rfl⟩
        · exact ⟨trivial, rfl⟩
  | calls todo r =>
    cases t with
    | kill => cases todo with
      | nil => exact ⟨trivial, rfl⟩
      | cons c t => cases c <;> exact ⟨trivial, rfl⟩
    | go k =>
      cases todo with
      | nil => exact ⟨trivial, rfl⟩
      | cons c t =>
        have hq : c.path ≠ path := h c List.mem_cons_self
        have ht : ∀ call ∈ t, call.path ≠ path := fun call hc => h call (List.mem_cons_of_mem _ hc)
        cases c with
        | create q =>
          simp only [Call.path] at hq
          exact ⟨ht, by simp [Job.step, Disk.set, hq.symm]⟩
        | write q off data =>
          simp only [Call.path] at hq
          simp only [Job.step]
          split
          · exact ⟨ht, rfl⟩
          · cases disk q with
            | none => exact ⟨by simpa [Spares, Call.path, hq] using ht, rfl⟩
            | some c => exact ⟨by simpa [Spares, Call.path, hq] using ht, by simp [Disk.set, hq.symm]⟩

/-- A request that finds the file. -/
def Finds (path : Path) (full : Bytes) (state : σ) : Job σ → Prop
  | .look n s _ => statePath n s = path
  | .read p got => p = path ∧ ∃ k, got = full.take k
  | .done r => r = some state
  | .killed => True
  | _ => False

theorem Finds.step {ops : StateOps σ} {disk : Disk} {j : Job σ} {path : Path} {full : Bytes} {state : σ} (t : Turn)
    (hp : disk path = some full) (hs : ops.deserialize full = some state) (h : Finds path full state j) :
    Finds path full state (j.step ops disk t).2 := by
  cases j with
  | done s => exact h
  | killed => cases t <;> trivial
  | look n s a =>
    cases t with
    | kill => trivial
    | go k =>
      simp only [Finds] at h
      subst h
      simp only [Job.step, hp]
      exact ⟨rfl, 0, by simp⟩
  | read p got =>
    cases t with
    | kill => trivial
    | go k =>
      obtain ⟨rfl, m, rfl⟩ := h
      simp only [Job.step, hp]
      by_cases hl : full.length ≤ (full.take m).length
      · rw [if_pos hl]
        have : full.take m = full := List.take_of_length_le (by rw [List.length_take] at hl; omega)
        rw [this, hs]
        rfl
      · rw [if_neg hl]
        rw [List.length_take] at hl ⊢
        refine ⟨rfl, m + max 1 k, ?_⟩
        rw [show min m full.length = m by omega, List.take_add]
  | calls _ _ => exact absurd h (by simp [Finds])
  | save _ _ => exact absurd h (by simp [Finds])
  | failed => exact absurd h (by simp [Finds])

/-! ## How long it takes -/

/-- How many turns the calls to come take. -/
def Call.turns : Call → Nat
  | .create _ => 1
  | .write _ _ data => data.length + 1

/-- How many turns a process takes at most. -/
def turnsLeft (ops : StateOps σ) (contents : Path → Bytes) : Job σ → Nat
  | .look n s a => 2 + (contents (statePath n s)).length + (match a with | some st => (ops.serialize st).length + 4 | none => 0)
  | .save _ st => (ops.serialize st).length + 4
  | .calls todo _ => 1 + (todo.map Call.turns).sum
  | .read p got => 1 + ((contents p).length - got.length)
  | _ => 0

theorem turnsLeft_step {ops : StateOps σ} {contents : Path → Bytes} {disk : Disk} {j : Job σ} (t : Turn)
    (hd : ∀ p c, disk p = some c → Holed (contents p) c) :
    turnsLeft ops contents (j.step ops disk t).2 ≤ turnsLeft ops contents j - 1 := by
  cases j with
  | done s => simp [Job.step, turnsLeft]
  | failed => simp [Job.step, turnsLeft]
  | killed => cases t <;> simp [Job.step, turnsLeft]
  | look n s a =>
    cases t with
    | kill => simp [Job.step, turnsLeft]
    | go k =>
      simp only [Job.step]
      cases disk (statePath n s) with
      | some c => simp only [turnsLeft, List.length_nil]; omega
      | none =>
        cases a with
        | none => simp [turnsLeft]
        | some st => simp only [turnsLeft]; omega
  | save n st =>
    cases t with
    | kill => simp [Job.step, turnsLeft]
    | go k =>
      simp only [Job.step]
      cases disk (statePath n (ops.slot st)) with
      | some c => simp [turnsLeft]
      | none => simp [turnsLeft, Call.turns]; omega
  | read p got =>
    cases t with
    | kill => simp [Job.step, turnsLeft]
    | go k =>
      simp only [Job.step]
      cases hc : disk p with
      | none => simp [turnsLeft]
      | some c =>
        simp only
        split
        · cases ops.deserialize got <;> simp [turnsLeft]
        · have := (hd p c hc).1
          simp only [turnsLeft, List.length_append, List.length_take, List.length_drop]
          omega
  | calls todo r =>
    cases t with
    | kill => cases todo with
      | nil => simp [Job.step, turnsLeft]
      | cons c t => cases c <;> simp [Job.step, turnsLeft]
    | go k =>
      cases todo with
      | nil => simp [Job.step, turnsLeft]
      | cons c t =>
        cases c with
        | create q => simp [Job.step, turnsLeft, Call.turns]
        | write q off data =>
          simp only [Job.step]
          split
          · simp [turnsLeft, Call.turns]
          · rename_i he
            have : 0 < data.length := List.length_pos_iff.2 he
            cases disk q <;> simp [turnsLeft, Call.turns] <;> omega

theorem turnsLeft_run {ops : StateOps σ} {contents : Path → Bytes} (k : Nat) (turns : List (Nat × Turn)) :
    ∀ {disk : Disk} {jobs : List (Job σ)}, Good ops contents (disk, jobs) → ∀ {n : Nat}, (∀ j, jobs[k]? = some j → turnsLeft ops contents j ≤ n) →
    ∀ j, (run ops disk jobs turns).2[k]? = some j → turnsLeft ops contents j ≤ n - turns.countP (·.1 == k) := by
  induction turns with
  | nil => intro disk jobs _ n h j hj; simpa using h j hj
  | cons t ts ih =>
    intro disk jobs hg n h j hj
    rw [run_cons] at hj
    have hg' := hg.turn t
    by_cases hk : t.1 = k
    · have := ih hg' (n := n - 1) (by
        intro j' hj'
        obtain ⟨j0, hj0, ⟨h1, _⟩ | ⟨_, rfl⟩⟩ := turn_get hj'
        · exact absurd hk.symm h1
        · exact Nat.le_trans (turnsLeft_step t.2 hg.files) (Nat.sub_le_sub_right (h j0 hj0) 1)) j hj
      rw [List.countP_cons_of_pos (by simp [hk])]
      omega
    · have := ih hg' (n := n) (by
        intro j' hj'
        obtain ⟨j0, hj0, ⟨_, rfl⟩ | ⟨h1, _⟩⟩ := turn_get hj'
        · exact h _ hj0
        · exact absurd h1.symm hk) j hj
      rw [List.countP_cons_of_neg (by simp [hk])]
      exact this

/-! ## Networks -/

theorem Network.name_inj {m n : Network} (h : m.name = n.name) : m = n := by
  cases m <;> cases n <;> first | rfl | exact absurd h (by decide)

theorem WorksOn.step {ops : StateOps σ} {disk : Disk} {j : Job σ} {mine : Path → Prop} (t : Turn) (h : WorksOn ops mine j) :
    WorksOn ops mine (j.step ops disk t).2 ∧ ∀ p, ¬ mine p → (j.step ops disk t).1 p = disk p := by
  cases j with
  | done s => exact ⟨h, fun _ _ => rfl⟩
  | failed => exact ⟨h, fun _ _ => rfl⟩
  | killed => cases t <;> exact ⟨trivial, fun _ _ => rfl⟩
  | look m s a =>
    cases t with
    | kill => exact ⟨trivial, fun _ _ => rfl⟩
    | go k =>
      simp only [Job.step]
      cases disk (statePath m s) with
      | some c => exact ⟨h.1, fun _ _ => rfl⟩
      | none =>
        cases a with
        | none => exact ⟨trivial, fun _ _ => rfl⟩
        | some st => exact ⟨h.2 st rfl, fun _ _ => rfl⟩
  | save m st =>
    cases t with
    | kill => exact ⟨trivial, fun _ _ => rfl⟩
    | go k =>
      simp only [WorksOn] at h
      simp only [Job.step]
      cases disk (statePath m (ops.slot st)) with
      | some c => exact ⟨trivial, fun _ _ => rfl⟩
      | none => exact ⟨by simp [WorksOn, Call.path, h], fun _ _ => rfl⟩
  | read p got =>
    cases t with
    | kill => exact ⟨trivial, fun _ _ => rfl⟩
    | go k =>
      simp only [Job.step]
      cases disk p with
      | none => exact ⟨trivial, fun _ _ => rfl⟩
      | some c =>
        simp only
        split
        · cases ops.deserialize got <;> exact ⟨trivial, fun _ _ => rfl⟩
        · exact ⟨h, fun _ _ => rfl⟩
  | calls todo r =>
    cases t with
    | kill => cases todo with
      | nil => exact ⟨trivial, fun _ _ => rfl⟩
      | cons c t => cases c <;> exact ⟨trivial, fun _ _ => rfl⟩
    | go k =>
      cases todo with
      | nil => exact ⟨trivial, fun _ _ => rfl⟩
      | cons c t =>
        have hq : mine c.path := h c List.mem_cons_self
        have ht : ∀ call ∈ t, mine call.path := fun call hc => h call (List.mem_cons_of_mem _ hc)
        cases c with
        | create q =>
          simp only [Call.path] at hq
          refine ⟨ht, fun p hp => ?_⟩
          simp only [Job.step, Disk.set]
          rw [if_neg (by rintro rfl; exact hp hq)]
        | write q off data =>
          simp only [Call.path] at hq
          simp only [Job.step]
          split
          · exact ⟨ht, fun _ _ => rfl⟩
          · cases disk q with
            | none => exact ⟨by simpa [WorksOn, Call.path, hq] using ht, fun _ _ => rfl⟩
            | some c =>
              refine ⟨by simpa [WorksOn, Call.path, hq] using ht, fun p hp => ?_⟩
              simp only [Disk.set]
              rw [if_neg (by rintro rfl; exact hp hq)]

/-- A process only looks at the files it works on. -/
theorem WorksOn.local {ops : StateOps σ} {disk disk' : Disk} {j : Job σ} {mine : Path → Prop} (t : Turn) (h : WorksOn ops mine j)
    (hd : ∀ p, mine p → disk p = disk' p) :
    (j.step ops disk t).2 = (j.step ops disk' t).2 ∧ ∀ p, mine p → (j.step ops disk t).1 p = (j.step ops disk' t).1 p := by
  have hset : ∀ q c p, mine p → disk.set q c p = disk'.set q c p := by
    intro q c p hp; unfold Disk.set; rw [hd p hp]
  cases j with
  | done s => exact ⟨rfl, hd⟩
  | failed => exact ⟨rfl, hd⟩
  | killed => cases t <;> exact ⟨rfl, hd⟩
  | look m s a =>
    cases t with
    | kill => exact ⟨rfl, hd⟩
    | go k =>
      simp only [Job.step, ← hd (statePath m s) h.1]
      cases disk (statePath m s) with
      | some c => exact ⟨rfl, hd⟩
      | none => cases a <;> exact ⟨rfl, hd⟩
  | save m st =>
    cases t with
    | kill => exact ⟨rfl, hd⟩
    | go k =>
      simp only [Job.step, ← hd (statePath m (ops.slot st)) h]
      cases disk (statePath m (ops.slot st)) <;> exact ⟨rfl, hd⟩
  | read p got =>
    cases t with
    | kill => exact ⟨rfl, hd⟩
    | go k =>
      simp only [Job.step, ← hd p h]
      cases disk p with
      | none => exact ⟨rfl, hd⟩
      | some c =>
        simp only
        split
        · cases ops.deserialize got <;> exact ⟨rfl, hd⟩
        · exact ⟨rfl, hd⟩
  | calls todo r =>
    cases t with
    | kill => cases todo with
      | nil => exact ⟨rfl, hd⟩
      | cons c t => cases c <;> exact ⟨rfl, hd⟩
    | go k =>
      cases todo with
      | nil => exact ⟨rfl, hd⟩
      | cons c t =>
        have hq : mine c.path := h c List.mem_cons_self
        cases c with
        | create q => exact ⟨rfl, hset q []⟩
        | write q off data =>
          simp only [Call.path] at hq
          simp only [Job.step, ← hd q hq]
          split
          · exact ⟨rfl, hd⟩
          · cases disk q with
            | none => exact ⟨rfl, hd⟩
            | some c => exact ⟨rfl, hset q _⟩

/-- Two states of affairs that are the same as far as some of the files and processes are concerned. -/
structure Alike (ops : StateOps σ) (mine : Path → Prop) (inside : Nat → Prop) (s s' : Disk × List (Job σ)) : Prop where
  files : ∀ p, mine p → s.1 p = s'.1 p
  jobs : ∀ k, inside k → s.2[k]? = s'.2[k]?
  worksIn : ∀ (k : Nat) (j : Job σ), inside k → s.2[k]? = some j → WorksOn ops mine j
  worksOut : ∀ (k : Nat) (j : Job σ), ¬ inside k → s.2[k]? = some j → WorksOn ops (fun p => ¬ mine p) j

theorem works_turn {ops : StateOps σ} {mine : Path → Prop} {s : Disk × List (Job σ)} (t : Nat × Turn) (k : Nat)
    (h : ∀ j : Job σ, s.2[k]? = some j → WorksOn ops mine j) : ∀ j : Job σ, (turn ops s t).2[k]? = some j → WorksOn ops mine j := by
  intro j' hj'
  obtain ⟨j, hj, ⟨_, rfl⟩ | ⟨_, rfl⟩⟩ := turn_get hj'
  · exact h _ hj
  · exact (WorksOn.step t.2 (h j hj)).1

theorem Alike.skip {ops : StateOps σ} {mine : Path → Prop} {inside : Nat → Prop} {s s' : Disk × List (Job σ)}
    (h : Alike ops mine inside s s') (t : Nat × Turn) (ht : ¬ inside t.1) : Alike ops mine inside (turn ops s t) s' := by
  refine ⟨?_, ?_, fun k j hk => works_turn t k (fun j => h.worksIn k j hk) j, fun k j hk => works_turn t k (fun j => h.worksOut k j hk) j⟩
  · intro p hp
    rcases turn_disk (ops := ops) (s := s) (t := t) with ⟨_, he⟩ | ⟨j, hj, he, _⟩
    · rw [he]; exact h.files p hp
    · rw [he, (WorksOn.step t.2 (h.worksOut _ j ht hj)).2 p (by simpa using hp)]
      exact h.files p hp
  · intro k hk
    rw [turn_other (by rintro rfl; exact ht hk)]
    exact h.jobs k hk

theorem Alike.both {ops : StateOps σ} {mine : Path → Prop} {inside : Nat → Prop} {s s' : Disk × List (Job σ)}
    (h : Alike ops mine inside s s') (t : Nat × Turn) (ht : inside t.1) : Alike ops mine inside (turn ops s t) (turn ops s' t) := by
  have hj := h.jobs t.1 ht
  refine ⟨?_, ?_, fun k j hk => works_turn t k (fun j => h.worksIn k j hk) j, fun k j hk => works_turn t k (fun j => h.worksOut k j hk) j⟩
  · intro p hp
    unfold turn
    rw [← hj]
    cases hj0 : s.2[t.1]? with
    | none => exact h.files p hp
    | some j => exact (WorksOn.local t.2 (h.worksIn _ j ht hj0) h.files).2 p hp
  · intro k hk
    by_cases hkt : k = t.1
    · subst hkt
      rcases turn_disk (ops := ops) (s := s) (t := t) with ⟨h0, he⟩ | ⟨j, hj0, _, he⟩
      · rw [he]
        rcases turn_disk (ops := ops) (s := s') (t := t) with ⟨_, he'⟩ | ⟨j', hj', _, _⟩
        · rw [he']; exact hj
        · rw [← hj, h0] at hj'; cases hj'
      · rw [he]
        rcases turn_disk (ops := ops) (s := s') (t := t) with ⟨h0, _⟩ | ⟨j', hj', _, he'⟩
        · rw [← hj, hj0] at h0; cases h0
        · rw [he']
          rw [← hj, hj0] at hj'; cases hj'
          rw [(WorksOn.local t.2 (h.worksIn _ j ht hj0) h.files).1]
    · rw [turn_other hkt, turn_other hkt]; exact h.jobs k hk

theorem Alike.run {ops : StateOps σ} {mine : Path → Prop} {inside : Nat → Prop} [DecidablePred inside] (turns : List (Nat × Turn)) :
    ∀ {disk disk' : Disk} {jobs jobs' : List (Job σ)}, Alike ops mine inside (disk, jobs) (disk', jobs') →
    Alike ops mine inside (run ops disk jobs turns) (run ops disk' jobs' (turns.filter fun t => inside t.1)) := by
  induction turns with
  | nil => intro d d' j j' h; exact h
  | cons t ts ih =>
    intro d d' j j' h
    by_cases ht : inside t.1
    · rw [List.filter_cons_of_pos (by simpa using ht), run_cons, run_cons]
      exact ih (h.both t ht)
    · rw [List.filter_cons_of_neg (by simpa using ht), run_cons]
      exact ih (h.skip t ht)

theorem StartsFor.works {ops : StateOps σ} {n : Network} {j : Job σ} (h : StartsFor n j) : WorksOn ops (OfNetwork n) j := by
  cases h with
  | request s a => exact ⟨rfl, fun _ _ => rfl⟩
  | build e i j => simp [buildJob, WorksOn, Call.path, OfNetwork, inputPath, journalPath]

theorem WorksOn.mono {ops : StateOps σ} {mine mine' : Path → Prop} (hm : ∀ p, mine p → mine' p) {j : Job σ} (h : WorksOn ops mine j) :
    WorksOn ops mine' j := by
  cases j with
  | look n s a => exact ⟨hm _ h.1, fun st hst => hm _ (h.2 st hst)⟩
  | save n st => exact hm _ h
  | calls todo r => exact fun c hc => hm _ (h c hc)
  | read p got => exact hm _ h
  | _ => trivial

end Signal
