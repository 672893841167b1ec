import Verif.Props.BitVec
import Verif.Spec.Points

/-!
# C99: only valid keys and signatures are read
-/

namespace Signal
open Spec Wire

/-- The same decoder with one more condition on what it reads. -/
def Narrows {α : Type} (d d' : Decoder α) (P : α → Prop) : Prop := ∀ b x rest, d b = some (x, rest) ↔ d' b = some (x, rest) ∧ P x

theorem narrows_decodeN {α : Type} {d d' : Decoder α} {P : α → Prop} (h : Narrows d d' P) (n : Nat) :
    Narrows (decodeN d n) (decodeN d' n) (fun l => ∀ x ∈ l, P x) := by
  induction n with
  | zero =>
    intro b l rest
    simp only [decodeN, pure_apply, Option.some.injEq, Prod.mk.injEq]
    constructor
    · rintro ⟨rfl, rfl⟩
      exact ⟨⟨rfl, rfl⟩, by simp⟩
    · exact fun h => h.1
  | succ n ih =>
    intro b l rest
    simp only [decodeN, bind_eq_some, pure_apply, Option.some.injEq, Prod.mk.injEq]
    constructor
    · rintro ⟨x, r, h1, xs, r', h2, rfl, rfl⟩
      obtain ⟨h1, p⟩ := (h _ _ _).1 h1
      obtain ⟨h2, q⟩ := (ih _ _ _).1 h2
      exact ⟨⟨x, r, h1, xs, r', h2, rfl, rfl⟩, by simpa using ⟨p, q⟩⟩
    · rintro ⟨⟨x, r, h1, xs, r', h2, rfl, rfl⟩, p⟩
      simp only [List.mem_cons, forall_eq_or_imp] at p
      exact ⟨x, r, (h _ _ _).2 ⟨h1, p.1⟩, xs, r', (ih _ _ _).2 ⟨h2, p.2⟩, rfl, rfl⟩

theorem narrows_seq {α : Type} {d d' : Decoder α} {P : α → Prop} (h : Narrows d d' P) (word : Nat) :
    Narrows (decodeSeq word d) (decodeSeq word d') (fun l => ∀ x ∈ l, P x) := by
  intro b l rest
  simp only [decodeSeq, bind_eq_some]
  constructor
  · rintro ⟨n, r, h1, h2⟩
    obtain ⟨h2, p⟩ := (narrows_decodeN h n _ _ _).1 h2
    exact ⟨⟨n, r, h1, h2⟩, p⟩
  · rintro ⟨⟨n, r, h1, h2⟩, p⟩
    exact ⟨n, r, h1, (narrows_decodeN h n _ _ _).2 ⟨h2, p⟩⟩

theorem narrows_key (keyValid sigValid : Bytes → Bool) :
    Narrows (decodeKey (realWire keyValid sigValid)) (decodeKey (realWire (fun _ => true) (fun _ => true))) (fun k => keyValid k = true) := by
  intro b k rest
  simp only [decodeKey, bind_eq_some, pure_apply, check, Option.some.injEq, Prod.mk.injEq]
  constructor
  · rintro ⟨x, r, h1, u, r', h2, rfl, rfl⟩
    split at h2
    · rename_i hk
      cases h2
      exact ⟨⟨x, r, h1, (), r, rfl, rfl, rfl⟩, hk⟩
    · cases h2
  · rintro ⟨⟨x, r, h1, u, r', h2, rfl, rfl⟩, p⟩
    refine ⟨x, r, h1, u, r', ?_, rfl, rfl⟩
    rw [if_pos (show (realWire keyValid sigValid).keyValid x = true from p)]
    exact h2

theorem ssz_narrows (sigValid : Bytes → Bool) (b : Bytes) (a : Attestation) :
    Ssz.decodeAttestation sigValid b = some a ↔ Ssz.decodeAttestation (fun _ => true) b = some a ∧ sigValid (signatureOf a) = true := by
  rw [C75_reads_iff, C75_reads_iff]
  cases a with
  | base a =>
    simp only [SszAttestation, SszBase, signatureOf]
    constructor
    · rintro ⟨b', ⟨d, g, h1, h2, h3, h4⟩, h5⟩
      exact ⟨⟨b', ⟨d, g, h1, h2, trivial, h4⟩, h5⟩, h3⟩
    · rintro ⟨⟨b', ⟨d, g, h1, h2, -, h4⟩, h5⟩, h3⟩
      exact ⟨b', ⟨d, g, h1, h2, h3, h4⟩, h5⟩
  | electra a =>
    simp only [SszAttestation, SszElectra, signatureOf]
    constructor
    · rintro ⟨b', ⟨d, c, g, h1, h2, h3, h4⟩, h5⟩
      exact ⟨⟨b', ⟨d, c, g, h1, h2, trivial, h4⟩, h5⟩, h3⟩
    · rintro ⟨⟨b', ⟨d, c, g, h1, h2, -, h4⟩, h5⟩, h3⟩
      exact ⟨b', ⟨d, c, g, h1, h2, h3, h4⟩, h5⟩

theorem narrows_attestation (keyValid sigValid : Bytes → Bool) (word : Nat) :
    Narrows (decodeDiskAttestation (realWire keyValid sigValid) word) (decodeDiskAttestation (realWire (fun _ => true) (fun _ => true)) word)
      (fun a => sigValid (signatureOf a) = true) := by
  intro b a rest
  simp only [decodeDiskAttestation, bind_eq_some, lift, Option.map_eq_some_iff, Prod.mk.injEq]
  constructor
  · rintro ⟨x, r, h1, a', h2, rfl, rfl⟩
    obtain ⟨h2, p⟩ := (ssz_narrows sigValid x a').1 h2
    exact ⟨⟨x, r, h1, a', h2, rfl, rfl⟩, p⟩
  · rintro ⟨⟨x, r, h1, a', h2, rfl, rfl⟩, p⟩
    exact ⟨x, r, h1, a', (ssz_narrows sigValid x a').2 ⟨h2, p⟩, rfl, rfl⟩

/-- **C99.** The checks of the curve only ever refuse: any bytes are read as an input if and only if they are read so without the checks and every public key
and every signature in the input is valid. -/
theorem C99_reads_iff (keyValid sigValid : Bytes → Bool) (word : Nat) (b : Bytes) (input : GuestInput) :
    decodeInput (realWire keyValid sigValid) word b = some input ↔
      decodeInput (realWire (fun _ => true) (fun _ => true)) word b = some input ∧ PointsValid keyValid sigValid input := by
  simp only [decodeInput, Option.map_eq_some_iff, Prod.exists, exists_and_right, exists_eq_right, readInput, bind_eq_some, pure_apply, Option.some.injEq,
    Prod.mk.injEq]
  constructor
  · rintro ⟨rest, x1, r1, h1, x2, r2, h2, x3, r3, h3, x4, r4, h4, x5, r5, h5, x6, r6, h6, x7, r7, h7, x8, r8, h8, rfl, rfl⟩
    obtain ⟨h4, p⟩ := (narrows_seq (narrows_key keyValid sigValid) word _ _ _).1 h4
    obtain ⟨h7, q⟩ := (narrows_seq (narrows_attestation keyValid sigValid word) word _ _ _).1 h7
    exact ⟨⟨r8, x1, r1, h1, x2, r2, h2, x3, r3, h3, x4, r4, h4, x5, r5, h5, x6, r6, h6, x7, r7, h7, x8, r8, h8, rfl, rfl⟩, p, q⟩
  · rintro ⟨⟨rest, x1, r1, h1, x2, r2, h2, x3, r3, h3, x4, r4, h4, x5, r5, h5, x6, r6, h6, x7, r7, h7, x8, r8, h8, rfl, rfl⟩, p, q⟩
    exact ⟨r8, x1, r1, h1, x2, r2, h2, x3, r3, h3, x4, r4, (narrows_seq (narrows_key keyValid sigValid) word _ _ _).2 ⟨h4, p⟩, x5, r5, h5, x6, r6, h6, x7, r7,
      (narrows_seq (narrows_attestation keyValid sigValid word) word _ _ _).2 ⟨h7, q⟩, x8, r8, h8, rfl, rfl⟩

/-- **C99.** If the guest writes a journal, then every public key in its input is 96 bytes of a valid key and every attestation has 96 bytes of a valid
signature. -/
theorem C99_journal {ε : Type} (keyValid sigValid : Bytes → Bool) (X : Ext) (spec : ChainSpec) (cfg : Config) (stdin journal : Bytes)
    (h : (guestMain (realWire keyValid sigValid) X spec cfg stdin : Res ε Bytes) = .ok journal) :
    ∃ frame input, Frame.readFrame stdin = some frame ∧ decodeInput (realWire keyValid sigValid) X.usizeMod frame = some input ∧
      (guestEntry X spec cfg input : Res ε Bytes) = .ok journal ∧
      (∀ k ∈ input.publicKeys, k.length = 96 ∧ keyValid k = true) ∧
      ∀ a ∈ input.attestations, (signatureOf a).length = 96 ∧ sigValid (signatureOf a) = true := by
  unfold guestMain at h
  cases hf : Frame.readFrame stdin with
  | none => rw [hf] at h; cases h
  | some frame =>
    rw [hf] at h
    cases hi : decodeInput (realWire keyValid sigValid) X.usizeMod frame with
    | none => change (expect (decodeInput _ _ _) >>= _) = _ at h; rw [hi] at h; cases h
    | some input =>
      change (expect (decodeInput _ _ _) >>= _) = _ at h
      rw [hi] at h
      have fits := (C63_decoded_fits _ (C96_laws keyValid sigValid).1 _ _ _ hi).1
      refine ⟨frame, input, rfl, hi, h, fits.keys, fun a ha => ?_⟩
      obtain ⟨_, hw⟩ := C75_canonical sigValid _ _ (fits.attestations a ha).2
      cases a with
      | base a => exact ⟨hw.1.signature, hw.2⟩
      | electra a => exact ⟨hw.1.signature, hw.2⟩

/-- **C99.** A file that would be accepted but for the points: the guest runs on its input if all keys and signatures are valid and aborts if a single one is
not. The bytes of the file do not depend on what is valid. -/
theorem C99_one_invalid {ε : Type} (keyValid sigValid : Bytes → Bool) (X : Ext) (hlo : 32 < X.usizeMod) (hw : X.usizeMod ≤ 2 ^ 64) (spec : ChainSpec)
    (cfg : Config) (input : GuestInput) (h : InputFits (realWire (fun _ => true) (fun _ => true)) X.usizeMod input)
    (hsize : (encodeInput (realWire keyValid sigValid) input).length < 2 ^ 32) (more : Bytes) :
    (guestMain (realWire keyValid sigValid) X spec cfg (Frame.encodeInputStdin (encodeInput (realWire keyValid sigValid) input) ++ more) : Res ε Bytes) =
      if PointsValid keyValid sigValid input then guestEntry X spec cfg input else .panic := by
  unfold guestMain
  rw [readFrame_append _ _ hsize]
  change (expect (decodeInput _ _ (encodeInput (realWire (fun _ => true) (fun _ => true)) input)) >>= _) = _
  have ht := C63_round_trip _ (C96_laws (fun _ => true) (fun _ => true)).1 X.usizeMod hlo hw input h []
  rw [List.append_nil] at ht
  split
  · rename_i p
    rw [(C99_reads_iff keyValid sigValid _ _ _).2 ⟨ht, p⟩]
    rfl
  · rename_i p
    cases hd : decodeInput (realWire keyValid sigValid) X.usizeMod (encodeInput (realWire (fun _ => true) (fun _ => true)) input) with
    | none => rfl
    | some i =>
      obtain ⟨e, q⟩ := (C99_reads_iff keyValid sigValid _ _ _).1 hd
      rw [ht] at e
      cases e
      exact absurd q p

theorem extractLoop_keys (X : Ext) (trusted : Nat) (fuel : Nat) : ∀ values pubkeys i cache m,
    extractLoop X trusted fuel values pubkeys i cache = .ok m → ∀ all : List Bytes, (∀ k ∈ pubkeys, k ∈ all) → (∀ x ∈ cache, x.2.pubkey ∈ all) →
      ∀ x ∈ m, x.2.pubkey ∈ all := by
  induction fuel with
  | zero => intro values pubkeys i cache m h; simp [extractLoop] at h
  | succ fuel ih =>
    intro values pubkeys i cache m h all hp hc
    unfold extractLoop at h
    split at h
    · cases h
    · split at h
      · simp only [Res.bind_eq_ok, Res.pure_eq, Res.ok.injEq] at h
        obtain ⟨-, -, -, -, rfl⟩ := h
        exact hc
      · split at h
        · simp only [Res.bind_eq_ok] at h
          obtain ⟨-, -, h⟩ := h
          exact ih _ _ _ _ _ h all hp hc
        · split at h
          · cases h
          · simp only [Res.bind_eq_ok] at h
            obtain ⟨⟨info, rest⟩, e, h⟩ := h
            obtain ⟨k0, k1, eb, sl, ae, ac, ex, b, -, -, -, rfl⟩ := (extractValidator_eq_ok X).1 e
            refine ih _ _ _ _ _ h all (fun k hk => hp k (List.mem_cons_of_mem _ hk)) (fun x hx => ?_)
            rcases OMap.mem_insert_fst hx with rfl | hx
            · exact hp _ List.mem_cons_self
            · exact hc x hx

/-- **C99.** Whatever the guest then asks its reader for: the public keys of the active validators of any epoch and the signatures of the attestations are
valid. -/
theorem C99_used (keyValid sigValid : Bytes → Bool) (X : Ext) (spec : ChainSpec) (word : Nat) (b : Bytes) (input : GuestInput)
    (h : decodeInput (realWire keyValid sigValid) word b = some input) (r : GuestReader) (hr : input.intoReader X spec = .ok r) :
    (∀ epoch validators, r.toReader.activeValidators epoch = .ok validators → ∀ v ∈ validators, keyValid v.2.pubkey = true) ∧
    ∀ attestations, r.toReader.attestations = .ok attestations → ∀ a ∈ attestations, sigValid (signatureOf a) = true := by
  obtain ⟨_, hk, hs⟩ := (C99_reads_iff keyValid sigValid word b input).1 h
  obtain ⟨sr, st, vs0, -, -, -, -, -, h1, -, -, h2, -, -, -, -, -, -, ha⟩ := intoReader_eq_ok hr
  obtain ⟨f, hf, ho⟩ := registryLoop_only _ _ _ _ h2
  constructor
  · intro epoch validators e v hv
    cases e
    have hv := (List.mem_filter.1 hv).1
    rw [hf] at hv
    obtain ⟨x, hx, rfl⟩ := List.mem_map.1 hv
    rw [(ho x.1 x.2).pubkey]
    exact hk _ (extractLoop_keys X _ _ _ _ _ _ _ h1 _ (fun _ h => h) (by simp) x hx)
  · intro attestations e a hm
    cases e
    exact hs a (ha ▸ hm)

/-- The reader of the examples of C81 has keys to check. -/
example (n : Net) (hn : n.Shipped) : ∃ r, n.input.intoReader exExt n.spec = .ok r ∧ r.validators ≠ [] ∧ r.attestations ≠ [] := by
  rcases hn with rfl | rfl
  · exact ⟨_, Net.input_reader (Or.inl rfl), by decide +kernel, by decide +kernel⟩
  · exact ⟨_, Net.input_reader (Or.inr rfl), by decide +kernel, by decide +kernel⟩

/-- The hypotheses are met by the files of the examples of C81: with valid points the guest writes a journal; the same file with a single key that is not valid,
or with signatures that are not, makes it abort. -/
example (n : Net) (hn : n.Shipped) : ∃ journal,
    (guestMain (realWire (fun _ => true) (fun _ => true)) exExt n.spec n.cfg
      (Frame.encodeInputStdin (encodeInput (realWire (fun _ => true) (fun _ => true)) n.input) ++ []) : Res Unit Bytes) = .ok journal ∧
    (guestMain (realWire (fun k => some k != n.input.publicKeys.head?) (fun _ => true)) exExt n.spec n.cfg
      (Frame.encodeInputStdin (encodeInput (realWire (fun k => some k != n.input.publicKeys.head?) (fun _ => true)) n.input) ++ []) : Res Unit Bytes) = .panic ∧
    (guestMain (realWire (fun _ => true) (fun _ => false)) exExt n.spec n.cfg
      (Frame.encodeInputStdin (encodeInput (realWire (fun _ => true) (fun _ => false)) n.input) ++ []) : Res Unit Bytes) = .panic := by
  have fits : InputFits (realWire (fun _ => true) (fun _ => true)) exExt.usizeMod n.input := Net.real_fits hn
  have size : ∀ k s, (encodeInput (realWire k s) n.input).length < 2 ^ 32 := fun _ _ => Net.real_size hn
  obtain ⟨k, hk, a, ha⟩ : ∃ k, n.input.publicKeys.head? = some k ∧ ∃ a, a ∈ n.input.attestations := by
    rcases hn with rfl | rfl
    · exact ⟨_, rfl, _, List.mem_cons_self⟩
    · exact ⟨_, rfl, _, List.mem_cons_self⟩
  have hk' : k ∈ n.input.publicKeys := List.mem_of_mem_head? hk
  have run := C99_one_invalid (ε := Unit) (fun _ => true) (fun _ => true) exExt (by decide) (by decide) n.spec n.cfg n.input fits (size _ _) []
  rw [if_pos ⟨fun _ _ => rfl, fun _ _ => rfl⟩, Net.input_runs hn] at run
  refine ⟨_, run, ?_, ?_⟩
  · rw [C99_one_invalid _ _ exExt (by decide) (by decide) _ _ _ fits (size _ _), if_neg (fun p => by have := p.1 k hk'; simp [hk] at this)]
  · rw [C99_one_invalid _ _ exExt (by decide) (by decide) _ _ _ fits (size _ _), if_neg (fun p => by have := p.2 a ha; simp at this)]

end Signal
