import Verif.Spec.Wire
import Verif.Proofs.Bytes
import Verif.Proofs.OMap
import Mathlib.Tactic.NormNum

/-!
# Lemmas about the decoders
-/

namespace Signal.Wire

open Spec

variable {α β : Type}

theorem bind_apply (d : Decoder α) (f : α → Decoder β) (b : Bytes) :
    (d >>= f) b = match d b with | none => none | some (x, rest) => f x rest := rfl

theorem pure_apply (a : α) (b : Bytes) : (pure a : Decoder α) b = some (a, b) := rfl

theorem bind_eq_some {d : Decoder α} {f : α → Decoder β} {b : Bytes} {r : β × Bytes} :
    (d >>= f) b = some r ↔ ∃ x rest, d b = some (x, rest) ∧ f x rest = some r := by
  rw [bind_apply]
  cases h : d b with
  | none => simp
  | some p =>
    obtain ⟨x, rest⟩ := p
    constructor
    · intro h'; exact ⟨x, rest, rfl, h'⟩
    · rintro ⟨_, _, h1, h2⟩; cases h1; exact h2

theorem bind_reads {d : Decoder α} {f : α → Decoder β} {b : Bytes} {x : α} {rest : Bytes}
    (h : d b = some (x, rest)) : (d >>= f) b = f x rest := by rw [bind_apply, h]

/-! ## Reading back what was written -/

theorem take_reads (x rest : Bytes) {n : Nat} (h : x.length = n) : take n (x ++ rest) = some (x, rest) := by
  subst h; simp [take]

theorem check_reads {c : Bool} (h : c = true) (b : Bytes) : check c b = some ((), b) := by simp [check, h]

theorem u64_reads {n : Nat} (h : n < 2 ^ 64) (rest : Bytes) : decodeU64 (encodeU64 n ++ rest) = some (n, rest) := by
  unfold decodeU64 encodeU64
  rw [bind_reads (take_reads _ _ (leBytes_length 8 n)), pure_apply, ofLE_leBytes, Nat.mod_eq_of_lt (lt_of_lt_of_le h (by norm_num))]

theorem u32_reads {n : Nat} (h : n < 2 ^ 32) (rest : Bytes) : decodeU32 (encodeU32 n ++ rest) = some (n, rest) := by
  unfold decodeU32 encodeU32
  rw [bind_reads (take_reads _ _ (leBytes_length 4 n)), pure_apply, ofLE_leBytes, Nat.mod_eq_of_lt (lt_of_lt_of_le h (by norm_num))]

theorem usize_reads {word n : Nat} (hw : word ≤ 2 ^ 64) (h : n < word) (rest : Bytes) :
    decodeUsize word (encodeU64 n ++ rest) = some (n, rest) := by
  unfold decodeUsize
  rw [bind_reads (u64_reads (by omega) rest), bind_reads (check_reads (by simpa using h) _), pure_apply]

theorem bytes_reads {word : Nat} (hw : word ≤ 2 ^ 64) {x : Bytes} (h : x.length < word) (rest : Bytes) :
    decodeBytes word (encodeBytes x ++ rest) = some (x, rest) := by
  unfold decodeBytes encodeBytes
  rw [List.append_assoc, bind_reads (usize_reads hw h _), take_reads _ _ rfl]

theorem root_reads {word : Nat} (hw : word ≤ 2 ^ 64) (hlo : 32 < word) {x : Bytes} (h : x.length = 32) (rest : Bytes) :
    decodeRoot word (encodeBytes x ++ rest) = some (x, rest) := by
  unfold decodeRoot
  rw [bind_reads (bytes_reads hw (by omega) rest), bind_reads (check_reads (by simpa using h) _), pure_apply]

theorem decodeN_reads {d : Decoder α} {e : α → Bytes} (l : List α)
    (h : ∀ x ∈ l, ∀ rest, d (e x ++ rest) = some (x, rest)) (rest : Bytes) :
    decodeN d l.length ((l.map e).flatten ++ rest) = some (l, rest) := by
  induction l with
  | nil => rfl
  | cons x l ih =>
    simp only [List.length_cons, List.map_cons, List.flatten_cons, List.append_assoc, decodeN]
    rw [bind_reads (h x (by simp) _), bind_reads (ih (fun y hy => h y (by simp [hy]))), pure_apply]

theorem seq_reads {word : Nat} (hw : word ≤ 2 ^ 64) {d : Decoder α} {e : α → Bytes} {l : List α} (hl : l.length < word)
    (h : ∀ x ∈ l, ∀ rest, d (e x ++ rest) = some (x, rest)) (rest : Bytes) :
    decodeSeq word d (encodeSeq e l ++ rest) = some (l, rest) := by
  unfold decodeSeq encodeSeq
  rw [List.append_assoc, bind_reads (usize_reads hw hl _), decodeN_reads l h]

theorem map_reads {V : Type} {word : Nat} (hw : word ≤ 2 ^ 64) {dk : Decoder Nat} {dv : Decoder V} {ek : Nat → Bytes}
    {ev : V → Bytes} {m : OMap V} (hm : m.length < word) (hs : m.Sorted)
    (hk : ∀ x ∈ m, ∀ rest, dk (ek x.1 ++ rest) = some (x.1, rest))
    (hv : ∀ x ∈ m, ∀ rest, dv (ev x.2 ++ rest) = some (x.2, rest)) (rest : Bytes) :
    decodeMap word dk dv (encodeMap ek ev m ++ rest) = some (m, rest) := by
  unfold decodeMap encodeMap
  rw [bind_reads (seq_reads hw hm (d := decodeEntry dk dv) (fun x hx rest => ?_) rest), pure_apply, OMap.ofList_sorted hs]
  unfold decodeEntry
  rw [List.append_assoc, bind_reads (hk x hx _), bind_reads (hv x hx _), pure_apply]

theorem multiproof_reads {W : WireExt} (hW : WireLaws W) {word : Nat} (hw : word ≤ 2 ^ 64) {p : Multiproof}
    (h : ProofFits word p) (rest : Bytes) :
    decodeMultiproof W word (encodeMultiproof W p ++ rest) = some (p, rest) := by
  unfold decodeMultiproof encodeMultiproof
  simp only [List.append_assoc]
  rw [bind_reads (bytes_reads hw h.data _), bind_reads (hW.bits _ _ _ hw h.valueMask), bind_reads (hW.bits _ _ _ hw h.descriptor),
    bind_reads (usize_reads hw h.depth _), pure_apply]

theorem patch_reads {word : Nat} (hw : word ≤ 2 ^ 64) (hlo : 32 < word) {p : StatePatch}
    (h : PatchFits word p) (rest : Bytes) : decodePatch word (encodePatch p ++ rest) = some (p, rest) := by
  unfold decodePatch encodePatch
  rw [List.append_assoc,
    bind_reads (map_reads hw h.mixesCount h.mixesSorted (fun x hx => u32_reads (h.mixes x hx).1)
      (fun x hx => root_reads hw hlo (h.mixes x hx).2) _),
    bind_reads (map_reads hw h.exitsCount h.exitsSorted (fun x hx => usize_reads hw (h.exits x hx).1)
      (fun x hx => u64_reads (h.exits x hx).2) _), pure_apply]

theorem checkpoint_reads {word : Nat} (hw : word ≤ 2 ^ 64) (hlo : 32 < word) {c : Checkpoint} (h : WfCheckpoint c)
    (rest : Bytes) : decodeCheckpoint word (encodeCheckpoint c ++ rest) = some (c, rest) := by
  unfold decodeCheckpoint encodeCheckpoint
  rw [List.append_assoc, bind_reads (u64_reads h.1 _), bind_reads (root_reads hw hlo h.2 _), pure_apply]

theorem state_reads {word : Nat} (hw : word ≤ 2 ^ 64) (hlo : 32 < word) {s : ConsensusState}
    (h : WfState s) (rest : Bytes) :
    decodeState word (encodeState s ++ rest) = some (s, rest) := by
  unfold decodeState encodeState
  rw [List.append_assoc, bind_reads (checkpoint_reads hw hlo h.1 _), bind_reads (checkpoint_reads hw hlo h.2 _), pure_apply]

theorem key_reads {W : WireExt} {k : Bytes} (h : k.length = 96 ∧ W.keyValid k = true) (rest : Bytes) :
    decodeKey W (k ++ rest) = some (k, rest) := by
  unfold decodeKey
  rw [bind_reads (take_reads _ _ h.1), bind_reads (check_reads h.2 _), pure_apply]

theorem attestation_reads {W : WireExt} {word : Nat} (hw : word ≤ 2 ^ 64) {a : Attestation}
    (h : (W.encodeAttestation a).length < word ∧ W.decodeAttestation (W.encodeAttestation a) = some a) (rest : Bytes) :
    decodeDiskAttestation W word (encodeDiskAttestation W a ++ rest) = some (a, rest) := by
  unfold decodeDiskAttestation encodeDiskAttestation
  rw [bind_reads (bytes_reads hw h.1 _), h.2]; rfl

theorem input_reads {W : WireExt} (hW : WireLaws W) {word : Nat} (hw : word ≤ 2 ^ 64) (hlo : 32 < word) {input : GuestInput}
    (h : InputFits W word input) (rest : Bytes) : readInput W word (encodeInput W input ++ rest) = some (input, rest) := by
  unfold readInput encodeInput
  simp only [List.append_assoc]
  rw [bind_reads (multiproof_reads hW hw h.beaconBlock _), bind_reads (multiproof_reads hW hw h.beaconState _),
    bind_reads (multiproof_reads hW hw h.activeValidators _),
    bind_reads (seq_reads hw h.keysCount (e := id) (fun k hk => key_reads (h.keys k hk)) _),
    bind_reads (map_reads hw h.patchesCount h.patchesSorted (fun x hx => u64_reads (h.patches x hx).1)
      (fun x hx => patch_reads hw hlo (h.patches x hx).2) _),
    bind_reads (state_reads hw hlo h.state _),
    bind_reads (seq_reads hw h.attestationsCount (fun a ha => attestation_reads hw (h.attestations a ha)) _),
    bind_reads (seq_reads hw h.slotProofsCount (fun p hp => multiproof_reads hW hw (h.slotProofs p hp)) _), pure_apply]

/-! ## More bytes behind -/

/-- A decoder that succeeds also succeeds with more bytes behind. -/
def More (d : Decoder α) : Prop := ∀ b x rest more, d b = some (x, rest) → d (b ++ more) = some (x, rest ++ more)

theorem more_pure (a : α) : More (pure a : Decoder α) := by
  intro b x rest more h
  rw [pure_apply] at h ⊢
  cases h; rfl

theorem more_bind {d : Decoder α} {f : α → Decoder β} (hd : More d) (hf : ∀ x, More (f x)) : More (d >>= f) := by
  intro b y rest more h
  obtain ⟨x, r, h1, h2⟩ := bind_eq_some.1 h
  rw [bind_reads (hd _ _ _ more h1)]
  exact hf x _ _ _ more h2

theorem more_check (c : Bool) : More (check c) := by
  intro b x rest more h
  unfold check at h ⊢
  split at h
  · rename_i hc; rw [if_pos hc]; cases h; rfl
  · cases h

theorem more_take (n : Nat) : More (take n) := by
  intro b x rest more h
  unfold take at h ⊢
  split at h
  · rename_i hn
    cases h
    rw [if_pos (by simp; omega), List.take_append_of_le_length hn, List.drop_append_of_le_length hn]
  · cases h

theorem more_lift (o : Option α) : More (lift o) := by
  intro b x rest more h
  cases o with
  | none => cases h
  | some a => cases h; rfl

theorem more_u64 : More decodeU64 := more_bind (more_take _) (fun _ => more_pure _)
theorem more_u32 : More decodeU32 := more_bind (more_take _) (fun _ => more_pure _)
theorem more_usize (word : Nat) : More (decodeUsize word) :=
  more_bind more_u64 (fun _ => more_bind (more_check _) (fun _ => more_pure _))
theorem more_bytes (word : Nat) : More (decodeBytes word) := more_bind (more_usize _) (fun _ => more_take _)
theorem more_root (word : Nat) : More (decodeRoot word) :=
  more_bind (more_bytes _) (fun _ => more_bind (more_check _) (fun _ => more_pure _))
theorem more_decodeN {d : Decoder α} (hd : More d) (n : Nat) : More (decodeN d n) := by
  induction n with
  | zero => exact more_pure _
  | succ n ih => exact more_bind hd (fun _ => more_bind ih (fun _ => more_pure _))
theorem more_seq (word : Nat) {d : Decoder α} (hd : More d) : More (decodeSeq word d) :=
  more_bind (more_usize _) (fun _ => more_decodeN hd _)
theorem more_map {V : Type} (word : Nat) {dk : Decoder Nat} {dv : Decoder V} (hk : More dk) (hv : More dv) :
    More (decodeMap word dk dv) :=
  more_bind (more_seq _ (more_bind hk (fun _ => more_bind hv (fun _ => more_pure _)))) (fun _ => more_pure _)
theorem more_bits {W : WireExt} (hW : WireLaws W) (word : Nat) : More (W.decodeBits word) :=
  fun b l rest more h => hW.bits_more word b l rest more h
theorem more_multiproof {W : WireExt} (hW : WireLaws W) (word : Nat) : More (decodeMultiproof W word) :=
  more_bind (more_bytes _) (fun _ => more_bind (more_bits hW _) (fun _ => more_bind (more_bits hW _) (fun _ =>
    more_bind (more_usize _) (fun _ => more_pure _))))
theorem more_key (W : WireExt) : More (decodeKey W) :=
  more_bind (more_take _) (fun _ => more_bind (more_check _) (fun _ => more_pure _))
theorem more_patch (word : Nat) : More (decodePatch word) :=
  more_bind (more_map _ more_u32 (more_root _)) (fun _ => more_bind (more_map _ (more_usize _) more_u64) (fun _ => more_pure _))
theorem more_checkpoint (word : Nat) : More (decodeCheckpoint word) :=
  more_bind more_u64 (fun _ => more_bind (more_root _) (fun _ => more_pure _))
theorem more_state (word : Nat) : More (decodeState word) :=
  more_bind (more_checkpoint _) (fun _ => more_bind (more_checkpoint _) (fun _ => more_pure _))
theorem more_attestation (W : WireExt) (word : Nat) : More (decodeDiskAttestation W word) :=
  more_bind (more_bytes _) (fun _ => more_lift _)
theorem more_input {W : WireExt} (hW : WireLaws W) (word : Nat) : More (readInput W word) :=
  more_bind (more_multiproof hW _) fun _ => more_bind (more_multiproof hW _) fun _ => more_bind (more_multiproof hW _) fun _ =>
    more_bind (more_seq _ (more_key W)) fun _ => more_bind (more_map _ more_u64 (more_patch _)) fun _ =>
      more_bind (more_state _) fun _ => more_bind (more_seq _ (more_attestation W _)) fun _ =>
        more_bind (more_seq _ (more_multiproof hW _)) fun _ => more_pure _

/-! ## A larger machine -/

/-- What the first decoder reads, the second reads too. -/
def Larger (d d' : Decoder α) : Prop := ∀ b r, d b = some r → d' b = some r

theorem larger_refl (d : Decoder α) : Larger d d := fun _ _ h => h

theorem larger_bind {d d' : Decoder α} {f f' : α → Decoder β} (hd : Larger d d') (hf : ∀ x, Larger (f x) (f' x)) :
    Larger (d >>= f) (d' >>= f') := by
  intro b r h
  obtain ⟨x, rest, h1, h2⟩ := bind_eq_some.1 h
  rw [bind_reads (hd _ _ h1)]
  exact hf x _ _ h2

theorem larger_check {c c' : Bool} (h : c = true → c' = true) : Larger (check c) (check c') := by
  intro b r hr
  unfold check at hr ⊢
  split at hr
  · rename_i hc; rw [if_pos (h hc)]; exact hr
  · cases hr

variable {w w' : Nat} (hw : w ≤ w')
include hw

theorem larger_usize : Larger (decodeUsize w) (decodeUsize w') :=
  larger_bind (larger_refl _) (fun _ => larger_bind (larger_check (by simp; omega)) (fun _ => larger_refl _))
theorem larger_bytes : Larger (decodeBytes w) (decodeBytes w') :=
  larger_bind (larger_usize hw) (fun _ => larger_refl _)
theorem larger_root : Larger (decodeRoot w) (decodeRoot w') :=
  larger_bind (larger_bytes hw) (fun _ => larger_refl _)
omit hw in
theorem larger_decodeN {d d' : Decoder α} (hd : Larger d d') (n : Nat) : Larger (decodeN d n) (decodeN d' n) := by
  induction n with
  | zero => exact larger_refl _
  | succ n ih => exact larger_bind hd (fun _ => larger_bind ih (fun _ => larger_refl _))
theorem larger_seq {d d' : Decoder α} (hd : Larger d d') : Larger (decodeSeq w d) (decodeSeq w' d') :=
  larger_bind (larger_usize hw) (fun _ => larger_decodeN hd _)
theorem larger_map {V : Type} {dk dk' : Decoder Nat} {dv dv' : Decoder V} (hk : Larger dk dk') (hv : Larger dv dv') :
    Larger (decodeMap w dk dv) (decodeMap w' dk' dv') :=
  larger_bind (larger_seq hw (larger_bind hk (fun _ => larger_bind hv (fun _ => larger_refl _)))) (fun _ => larger_refl _)
theorem larger_bits {W : WireExt} (hW : WireLaws W) : Larger (W.decodeBits w) (W.decodeBits w') :=
  fun b r h => hW.bits_larger w w' b r hw h
theorem larger_multiproof {W : WireExt} (hW : WireLaws W) : Larger (decodeMultiproof W w) (decodeMultiproof W w') :=
  larger_bind (larger_bytes hw) (fun _ => larger_bind (larger_bits hw hW) (fun _ => larger_bind (larger_bits hw hW) (fun _ =>
    larger_bind (larger_usize hw) (fun _ => larger_refl _))))
theorem larger_patch : Larger (decodePatch w) (decodePatch w') :=
  larger_bind (larger_map hw (larger_refl _) (larger_root hw)) (fun _ =>
    larger_bind (larger_map hw (larger_usize hw) (larger_refl _)) (fun _ => larger_refl _))
theorem larger_checkpoint : Larger (decodeCheckpoint w) (decodeCheckpoint w') :=
  larger_bind (larger_refl _) (fun _ => larger_bind (larger_root hw) (fun _ => larger_refl _))
theorem larger_state : Larger (decodeState w) (decodeState w') :=
  larger_bind (larger_checkpoint hw) (fun _ => larger_bind (larger_checkpoint hw) (fun _ => larger_refl _))
theorem larger_attestation (W : WireExt) : Larger (decodeDiskAttestation W w) (decodeDiskAttestation W w') :=
  larger_bind (larger_bytes hw) (fun _ => larger_refl _)
theorem larger_input {W : WireExt} (hW : WireLaws W) : Larger (readInput W w) (readInput W w') :=
  larger_bind (larger_multiproof hw hW) fun _ => larger_bind (larger_multiproof hw hW) fun _ =>
    larger_bind (larger_multiproof hw hW) fun _ => larger_bind (larger_seq hw (larger_refl _)) fun _ =>
      larger_bind (larger_map hw (larger_refl _) (larger_patch hw)) fun _ => larger_bind (larger_state hw) fun _ =>
        larger_bind (larger_seq hw (larger_attestation hw W)) fun _ => larger_bind (larger_seq hw (larger_multiproof hw hW)) fun _ =>
          larger_refl _

omit hw

/-! ## What was read -/

/-- Everything the decoder reads satisfies `P`. -/
def Gives (d : Decoder α) (P : α → Prop) : Prop := ∀ b x rest, d b = some (x, rest) → P x

theorem gives_pure {a : α} {P : α → Prop} (h : P a) : Gives (pure a) P := by
  intro b x rest hx
  rw [pure_apply] at hx
  cases hx; exact h

theorem gives_bind {d : Decoder α} {f : α → Decoder β} {P : α → Prop} {Q : β → Prop} (hd : Gives d P)
    (hf : ∀ x, P x → Gives (f x) Q) : Gives (d >>= f) Q := by
  intro b y rest h
  obtain ⟨x, r, h1, h2⟩ := bind_eq_some.1 h
  exact hf x (hd _ _ _ h1) _ _ _ h2

theorem gives_check (c : Bool) : Gives (check c) (fun _ => c = true) := by
  intro b x rest h
  unfold check at h
  split at h
  · assumption
  · cases h

theorem gives_take (n : Nat) : Gives (take n) (fun x => x.length = n) := by
  intro b x rest h
  unfold take at h
  split at h
  · cases h; simp; omega
  · cases h

theorem gives_lift (o : Option α) : Gives (lift o) (fun x => o = some x) := by
  intro b x rest h
  cases o with
  | none => cases h
  | some a => cases h; rfl

theorem gives_u64 : Gives decodeU64 (· < 2 ^ 64) :=
  gives_bind (gives_take 8) (fun x hx => gives_pure (by have := ofLE_lt x; rw [hx] at this; norm_num at this ⊢; exact this))
theorem gives_u32 : Gives decodeU32 (· < 2 ^ 32) :=
  gives_bind (gives_take 4) (fun x hx => gives_pure (by have := ofLE_lt x; rw [hx] at this; norm_num at this ⊢; exact this))
theorem gives_usize (word : Nat) : Gives (decodeUsize word) (· < word) :=
  gives_bind gives_u64 (fun _ _ => gives_bind (gives_check _) (fun _ h => gives_pure (by simpa using h)))
theorem gives_bytes (word : Nat) : Gives (decodeBytes word) (·.length < word) :=
  gives_bind (gives_usize word) (fun _ hn b x rest h => by have := gives_take _ b x rest h; omega)
theorem gives_root (word : Nat) : Gives (decodeRoot word) (·.length = 32) :=
  gives_bind (gives_bytes word) (fun _ _ => gives_bind (gives_check _) (fun _ h => gives_pure (by simpa using h)))
theorem gives_decodeN {d : Decoder α} {P : α → Prop} (hd : Gives d P) (n : Nat) :
    Gives (decodeN d n) (fun l => l.length = n ∧ ∀ x ∈ l, P x) := by
  induction n with
  | zero => exact gives_pure (by simp)
  | succ n ih =>
    exact gives_bind hd (fun x hx => gives_bind ih (fun l hl => gives_pure ⟨by simp [hl.1], by
      intro y hy
      rcases List.mem_cons.1 hy with rfl | hy
      · exact hx
      · exact hl.2 y hy⟩))
theorem gives_seq (word : Nat) {d : Decoder α} {P : α → Prop} (hd : Gives d P) :
    Gives (decodeSeq word d) (fun l => l.length < word ∧ ∀ x ∈ l, P x) :=
  gives_bind (gives_usize word) (fun _ hn b l rest h => by
    have := gives_decodeN hd _ b l rest h
    exact ⟨by omega, this.2⟩)

theorem insert_length_le {V : Type} (m : OMap V) (i : Nat) (x : V) : (m.insert i x).length ≤ m.length + 1 := by
  induction m with
  | nil => simp [OMap.insert]
  | cons p m ih =>
    obtain ⟨k, v⟩ := p
    simp only [OMap.insert]
    split
    · simp
    · split
      · simp
      · simp only [List.length_cons]; omega

theorem foldl_insert_length_le {V : Type} (l : List (Nat × V)) (m : OMap V) :
    (l.foldl (fun m p => OMap.insert m p.1 p.2) m).length ≤ m.length + l.length := by
  induction l generalizing m with
  | nil => simp
  | cons p l ih =>
    have := ih (m.insert p.1 p.2)
    have := insert_length_le m p.1 p.2
    simp only [List.foldl_cons, List.length_cons]; omega

theorem mem_foldl_insert {V : Type} (l : List (Nat × V)) (m : OMap V) (q : Nat × V)
    (h : q ∈ l.foldl (fun m p => OMap.insert m p.1 p.2) m) : q ∈ m ∨ q ∈ l := by
  induction l generalizing m with
  | nil => exact Or.inl h
  | cons p l ih =>
    rcases ih _ h with h | h
    · rcases OMap.mem_insert_fst h with h | h
      · exact Or.inr (by rw [h]; simp)
      · exact Or.inl h
    · exact Or.inr (by simp [h])

theorem gives_map {V : Type} (word : Nat) {dk : Decoder Nat} {dv : Decoder V} {P : Nat → Prop} {Q : V → Prop}
    (hk : Gives dk P) (hv : Gives dv Q) :
    Gives (decodeMap word dk dv) (fun m => m.Sorted ∧ m.length < word ∧ ∀ x ∈ m, P x.1 ∧ Q x.2) :=
  gives_bind (gives_seq word (gives_bind (Q := fun x : Nat × V => P x.1 ∧ Q x.2) hk
    (fun _ h1 => gives_bind hv (fun _ h2 => gives_pure ⟨h1, h2⟩))))
    (fun l hl => gives_pure ⟨OMap.sorted_ofList l, by
      have := foldl_insert_length_le l []
      simp only [List.length_nil] at this
      have h2 := hl.1
      unfold OMap.ofList; omega, by
      intro x hx
      rcases mem_foldl_insert l [] x hx with h | h
      · simp at h
      · exact hl.2 x h⟩)

theorem gives_bits {W : WireExt} (hW : WireLaws W) (word : Nat) : Gives (W.decodeBits word) (fun l => 8 * l.length < word) :=
  fun b l rest h => hW.bits_fit word b l rest h
theorem gives_multiproof {W : WireExt} (hW : WireLaws W) (word : Nat) : Gives (decodeMultiproof W word) (ProofFits word) :=
  gives_bind (gives_bytes _) fun _ h1 => gives_bind (gives_bits hW _) fun _ h2 => gives_bind (gives_bits hW _) fun _ h3 =>
    gives_bind (gives_usize _) fun _ h4 => gives_pure ⟨h1, h2, h3, h4⟩
theorem gives_key (W : WireExt) : Gives (decodeKey W) (fun k => k.length = 96 ∧ W.keyValid k = true) :=
  gives_bind (gives_take _) fun _ h1 => gives_bind (gives_check _) fun _ h2 => gives_pure ⟨h1, h2⟩
theorem gives_patch (word : Nat) : Gives (decodePatch word) (PatchFits word) :=
  gives_bind (gives_map _ gives_u32 (gives_root _)) fun _ h1 => gives_bind (gives_map _ (gives_usize _) gives_u64) fun _ h2 =>
    gives_pure ⟨h1.1, h1.2.1, h1.2.2, h2.1, h2.2.1, h2.2.2⟩
theorem gives_checkpoint (word : Nat) : Gives (decodeCheckpoint word) WfCheckpoint :=
  gives_bind gives_u64 fun _ h1 => gives_bind (gives_root _) fun _ h2 => gives_pure ⟨h1, h2⟩
theorem gives_state (word : Nat) :
    Gives (decodeState word) WfState :=
  gives_bind (gives_checkpoint _) fun _ h1 => gives_bind (gives_checkpoint _) fun _ h2 => gives_pure ⟨h1, h2⟩
theorem gives_attestation (W : WireExt) (word : Nat) :
    Gives (decodeDiskAttestation W word) (fun a => ∃ x : Bytes, x.length < word ∧ W.decodeAttestation x = some a) :=
  gives_bind (gives_bytes _) fun x hx => fun b a rest h => ⟨x, hx, gives_lift _ b a rest h⟩

/-- What was read, with each attestation coming from some bytes. -/
structure InputRead (W : WireExt) (word : Nat) (input : GuestInput) : Prop where
  beaconBlock : ProofFits word input.beaconBlock
  beaconState : ProofFits word input.beaconState
  activeValidators : ProofFits word input.activeValidators
  keys : input.publicKeys.length < word ∧ ∀ k ∈ input.publicKeys, k.length = 96 ∧ W.keyValid k = true
  patches : input.patches.Sorted ∧ input.patches.length < word ∧ ∀ x ∈ input.patches, x.1 < 2 ^ 64 ∧ PatchFits word x.2
  state : WfState input.consensusState
  attestations : input.attestations.length < word ∧ ∀ a ∈ input.attestations, ∃ x : Bytes, x.length < word ∧
    W.decodeAttestation x = some a
  slotProofs : input.blockSlotProofs.length < word ∧ ∀ p ∈ input.blockSlotProofs, ProofFits word p

theorem gives_input {W : WireExt} (hW : WireLaws W) (word : Nat) : Gives (readInput W word) (InputRead W word) :=
  gives_bind (gives_multiproof hW _) fun _ h1 => gives_bind (gives_multiproof hW _) fun _ h2 =>
    gives_bind (gives_multiproof hW _) fun _ h3 => gives_bind (gives_seq _ (gives_key W)) fun _ h4 =>
      gives_bind (gives_map _ gives_u64 (gives_patch _)) fun _ h5 => gives_bind (gives_state _) fun _ h6 =>
        gives_bind (gives_seq _ (gives_attestation W _)) fun _ h7 => gives_bind (gives_seq _ (gives_multiproof hW _)) fun _ h8 =>
          gives_pure ⟨h1, h2, h3, h4, h5, h6, h7, h8⟩

end Signal.Wire
