import Verif.Props.Program

/-! # C66, C67: the exact size up to which the guest accepts

`C66_complete_partial` and `C67_all_ok_partial` ask for the sizes of a real chain. Here that condition is replaced by the exact one: under
the other conditions the guest accepts the input file if and only if the input consists of values that the 32-bit guest can count and is
shorter than `2^32` bytes, the longest that the length before it can express. -/

namespace Signal
open Spec Wire Program

namespace Spec

/-- `QuietWorld` without a condition on sizes: what is read belongs to one chain, no active validator's balance has changed since the
trusted state, and the exits since then are accepted. -/
structure UnchangedWorld (W : WireExt) (X : Ext) (order : List Nat → List Nat) (spec : ChainSpec) (cfg : Config) (bound : Nat) (w : World)
    (epoch : Nat) : Prop extends HonestWorld W X (2 ^ 32) spec cfg bound w epoch where
  balances : ∀ r trusted st, ReaderFor X spec bound w epoch r trusted →
    stateAtCheckpoint X (hostStateOps X) spec.slotsPerEpoch w.provider trusted = .ok st →
    ∀ a ∈ r.attestations, ∀ s, r.state a.data.target.epoch = .ok s → ∀ (i : Nat) (v v' : Validator),
      st.beacon.validators[i]? = some v → s.beacon.validators[i]? = some v' → v'.activeAt a.data.target.epoch →
      v'.effectiveBalance = v.effectiveBalance
  accepted : ∀ r trusted input pre post slot, ReaderFor X spec bound w epoch r trusted →
    preflight X order cfg r trusted = .ok (input, pre, post, slot) → ∃ g, input.intoReader X spec = .ok g

/-- The bytes are the serialization of an input that fits a machine with 32-bit words, and their number fits a 32-bit length. -/
def FitsGuest (W : WireExt) (bytes : Bytes) : Prop :=
  (∃ input, InputFits W (2 ^ 32) input ∧ bytes = encodeInput W input) ∧ bytes.length < 2 ^ 32

end Spec

section exact
variable (W : WireExt) (hW : WireLaws W) (X : Ext) (order : List Nat → List Nat) (ho : ∀ l, (order l).Perm l)
  (hcap : 126 ≤ X.stackCapacity) (capacity : Nat) (hhi : X.usizeMod ≤ 2 ^ 64) (hle : 2 ^ 32 ≤ X.usizeMod)
  (hroom : 126 ≤ capacity) (hk : KeepsLength X) (spec : ChainSpec) (cfg : Config) (bound : Nat)

include hW hhi hle in
/-- A guest that commits to something has read the whole input. -/
theorem fits_of_accepted {input : GuestInput} (hfits : InputFits W X.usizeMod input) {ε : Type} {journal : Bytes}
    (h : (guestMain W (onMachine X (2 ^ 32) capacity) spec cfg (Frame.encodeInputStdin (encodeInput W input)) : Res ε Bytes) = .ok journal) :
    FitsGuest W (encodeInput W input) := by
  have hlo : 32 < X.usizeMod := by
    have : (32 : Nat) < 2 ^ 32 := by norm_num
    omega
  have hs : (encodeInput W input).length < 2 ^ 32 := by
    by_contra hn
    rw [C63_oversized_aborts W hW (onMachine X (2 ^ 32) capacity) (show 2 ^ 32 ≤ 2 ^ 64 by norm_num) spec cfg input X.usizeMod hle hlo hhi
      hfits (by omega)] at h
    cases h
  have hd : ∃ i, decodeInput W (2 ^ 32) (encodeInput W input) = some i := by
    unfold guestMain at h
    have hf := readFrame_append (encodeInput W input) [] hs
    rw [List.append_nil] at hf
    rw [hf] at h
    simp only [expect, Res.ok_bind] at h
    cases hd : decodeInput W (2 ^ 32) (encodeInput W input) with
    | some i => exact ⟨i, rfl⟩
    | none =>
      have : decodeInput W (onMachine X (2 ^ 32) capacity).usizeMod (encodeInput W input) = none := hd
      rw [this] at h
      cases h
  obtain ⟨i, hi⟩ := hd
  have h1 := C63_host_agrees W hW _ _ hle _ _ hi
  have h2 := C63_round_trip W hW _ hlo hhi input hfits []
  rw [List.append_nil, h1] at h2
  cases h2
  exact ⟨⟨input, (C63_decoded_fits W hW _ _ _ hi).1, rfl⟩, hs⟩

include hW ho hcap hhi hle hroom hk

/-- The guest accepts what is prepared if and only if it fits; the host alone always accepts it, and with the guest if it fits. -/
theorem unchanged_accepted {w : World} {epoch : Nat} {p : Prepared} (hw : UnchangedWorld W X order spec cfg bound w epoch)
    (h : prepare W X order spec cfg bound w epoch = some (.ok p)) :
    (∀ r0vm, runVerify W X (onMachine X (2 ^ 32) capacity) spec cfg p.pre p.inputBytes r0vm = .ok p.post ↔
      (r0vm = true → FitsGuest W p.inputBytes)) ∧
    ∀ ε : Type, ((guestMain W (onMachine X (2 ^ 32) capacity) spec cfg (Frame.encodeInputStdin p.inputBytes) : Res ε Bytes) =
      .ok (Abi.encodeJournal p.pre p.post p.finalizedSlot) ↔ FitsGuest W p.inputBytes) ∧
      (¬FitsGuest W p.inputBytes → ∀ journal,
        (guestMain W (onMachine X (2 ^ 32) capacity) spec cfg (Frame.encodeInputStdin p.inputBytes) : Res ε Bytes) ≠ .ok journal) := by
  have hlo : 32 < X.usizeMod := by
    have : (32 : Nat) < 2 ^ 32 := by norm_num
    omega
  obtain ⟨r, trusted, st, input, g1, g2, rfl, g3, ht, hc, hf, g5, hfits, g6⟩ :=
    honest_parts W hW X order ho hcap (2 ^ 32) spec cfg bound hw.toHonestWorld h
  have hacc := hw.accepted r trusted input _ _ _ g1 g5
  have hbal := hw.balances r trusted st g1 g3
  have fit : FitsGuest W p.inputBytes → InputFits W (2 ^ 32) input ∧ (encodeInput W input).length < 2 ^ 32 := by
    rintro ⟨⟨i, hi, he⟩, hs⟩
    rw [g6] at he hs
    have h1 := C63_round_trip W hW _ (by norm_num) (by norm_num) i hi []
    have h2 := C63_host_agrees W hW _ _ hle _ _ h1
    have h3 := C63_round_trip W hW _ hlo hhi input hfits []
    rw [he, h2] at h3
    cases h3
    exact ⟨hi, hs⟩
  have native : runVerify W X (onMachine X (2 ^ 32) capacity) r.spec cfg p.pre p.inputBytes false = .ok p.post := by
    rw [C64_native]
    have hhost := C61_same_journal X order ho hcap ht hc g5 hbal hacc (ε := Empty)
    obtain ⟨reader, post', slot', hr, hv, -⟩ := guestEntry_eq_ok hhost
    obtain ⟨hv0, -⟩ := preflight_parts X order ht g5
    obtain ⟨v1, v2⟩ := guest_sameView X order ho hcap ht hc g5 hr
    obtain ⟨_, _, _, _, _, _, hu, _⟩ := C61_verdict_iff X cfg _ _ p.post p.finalizedSlot hv0 v1 v2
    cases hu _ hv
    have hdec := C63_round_trip W hW _ hlo hhi input hfits []
    rw [List.append_nil, ← g6] at hdec
    exact ⟨input, reader, _, hdec, hr, hv⟩
  have main : ∀ ε : Type, FitsGuest W p.inputBytes →
      (guestMain W (onMachine X (2 ^ 32) capacity) r.spec cfg (Frame.encodeInputStdin p.inputBytes) : Res ε Bytes) =
        .ok (Abi.encodeJournal p.pre p.post p.finalizedSlot) := by
    intro ε hfit
    obtain ⟨h1, h2⟩ := fit hfit
    have hmach := preflight_intoReader W hW X order ho hcap (2 ^ 32) capacity hroom hk ht hc hf g5
    have hg := C62_same_journal X order ho hcap (2 ^ 32) capacity hroom hk ht hc hf g5 hbal (by rw [hmach]; exact hacc) (ε := ε)
    have hm := C63_guest_reads (ε := ε) W hW (onMachine X (2 ^ 32) capacity) (by show 32 < 2 ^ 32; norm_num)
      (by show 2 ^ 32 ≤ 2 ^ 64; norm_num) r.spec cfg input h1 h2 []
    rw [List.append_nil, hg] at hm
    rw [g6]
    exact hm
  have only : ∀ (ε : Type) journal,
      (guestMain W (onMachine X (2 ^ 32) capacity) r.spec cfg (Frame.encodeInputStdin p.inputBytes) : Res ε Bytes) = .ok journal →
        FitsGuest W p.inputBytes := by
    intro ε journal hj
    rw [g6] at hj ⊢
    exact fits_of_accepted W hW X capacity hhi hle r.spec cfg hfits hj
  refine ⟨?_, fun ε => ⟨⟨only ε _, main ε⟩, ?_⟩⟩
  · rintro (_ | _)
    · exact ⟨fun _ h => (by cases h), fun _ => native⟩
    · refine ⟨fun hr _ => ?_, fun hfit => ?_⟩
      · obtain ⟨slot, h1, -⟩ := C64_checked W hW _ _ _ _ _ _ _ hr
        exact only _ _ h1
      · obtain ⟨h1, h2⟩ := fit (hfit rfl)
        rw [g6]
        exact C64_complete W hW X order ho hcap _ capacity (by norm_num) hhi hle hroom hk ht hc hf g5 hbal hacc h1 h2 true
  · exact fun hn journal hj => hn (only ε journal hj)

/-- **C66.** When `build-input` is not interrupted within a round, then for every epoch whose files it has touched the guest program,
started with the input file, commits to exactly the content of the journal file if the input fits the guest, and to nothing otherwise. -/
theorem C66_complete_iff_partial {ε : Type} (continuous : Bool) (epoch : Nat) (passes : List Pass)
    (hw : ∀ pass ∈ passes, ∀ e, UnchangedWorld W X order spec cfg bound pass.world e) (fs fs' : Files) (e : Nat)
    (hfs : fs' = applyOps fs (buildLoop W X order spec cfg bound continuous epoch passes).1) :
    (fs' (.input e) = fs (.input e) ∧ fs' (.journal e) = fs (.journal e)) ∨
    ∃ bytes journal, fs' (.input e) = some (Frame.encodeInputStdin bytes) ∧ fs' (.journal e) = some journal ∧
      ((guestMain W (onMachine X (2 ^ 32) capacity) spec cfg (Frame.encodeInputStdin bytes) : Res ε Bytes) = .ok journal ↔
        FitsGuest W bytes) ∧
      (¬FitsGuest W bytes → ∀ j,
        (guestMain W (onMachine X (2 ^ 32) capacity) spec cfg (Frame.encodeInputStdin bytes) : Res ε Bytes) ≠ .ok j) := by
  subst hfs
  obtain ⟨R, h1, h2, -⟩ := C66_rounds W X order spec cfg bound continuous epoch passes
  rw [h2]
  by_cases he : ∃ x ∈ R, x.2.1 = e
  · obtain ⟨x, hx, rfl⟩ := he
    obtain ⟨a, b, rfl⟩ := List.append_of_mem hx
    have hp := h1.prepared x hx
    have hpass := h1.passes.subset (List.mem_map_of_mem hx)
    obtain ⟨-, hg⟩ := unchanged_accepted W hW X order ho hcap capacity hhi hle hroom hk spec cfg bound (hw x.1 hpass x.2.1) hp
    rw [List.flatMap_append, List.flatMap_cons, applyOps_append, applyOps_append]
    have later : ∀ g : FileName, g.epoch = x.2.1 → ∀ fs, applyOps fs (b.flatMap (fun x => roundOps x.2.1 x.2.2)) g = fs g := by
      intro g hge fs
      refine applyOps_other ?_ fs
      rintro op ho rfl
      obtain ⟨y, hy, h3⟩ := List.mem_flatMap.1 ho
      have h4 := roundOps_epoch h3
      have h5 := (List.pairwise_cons.1 (List.pairwise_append.1 h1.later).2.1).1 y hy
      omega
    rw [later _ rfl, later _ rfl, (roundOps_complete _ _ _).1, (roundOps_complete _ _ _).2]
    exact .inr ⟨_, _, rfl, rfl, hg ε⟩
  · have keep : ∀ g : FileName, g.epoch = e → applyOps fs (R.flatMap (fun x => roundOps x.2.1 x.2.2)) g = fs g := by
      rintro g rfl
      refine applyOps_other ?_ fs
      rintro op ho rfl
      obtain ⟨y, hy, h3⟩ := List.mem_flatMap.1 ho
      exact he ⟨y, hy, (roundOps_epoch h3).symm⟩
    exact .inl ⟨keep _ rfl, keep _ rfl⟩

/-- **C67.** While the validators' balances do not change within a pass and the exits are accepted, every line of the log is `Ok` if the
guest is not run, and with the guest exactly the lines whose input fits it. -/
theorem C67_ok_iff_partial (r0vm : Bool) (initial : ConsensusState) (ws : List World)
    (hw : ∀ w ∈ ws, ∀ e, UnchangedWorld W X order spec cfg bound w e) (i : Nat) (line : LogLine)
    (h : (syncLoop W X (onMachine X (2 ^ 32) capacity) order spec cfg bound r0vm initial ws).1[i]? = some line) :
    ∃ w p, ws[i]? = some w ∧ prepare W X order spec cfg bound w line.before.finalized.epoch = some (.ok p) ∧ line.after = p.post ∧
      (line.message = .ok ↔ (r0vm = true → FitsGuest W p.inputBytes)) := by
  obtain ⟨w, p, hwi, hl⟩ := (C67_lines W X (onMachine X (2 ^ 32) capacity) order spec cfg bound r0vm initial ws).2.2 i line h
  exact ⟨w, p, hwi, hl.prepared, hl.after, hl.ok.trans ((unchanged_accepted W hW X order ho hcap capacity hhi hle hroom hk spec cfg bound
    (hw w (List.mem_of_getElem? hwi) _) hl.prepared).1 r0vm)⟩

end exact

/-! ## Concrete cases -/

theorem QuietWorld.unchanged {W : WireExt} {X : Ext} {order : List Nat → List Nat} {spec : ChainSpec} {cfg : Config} {bound : Nat}
    {w : World} {e : Nat} (h : QuietWorld W X order spec cfg bound w e) : UnchangedWorld W X order spec cfg bound w e :=
  ⟨h.toHonestWorld, h.balances, h.accepted⟩

/-- The two rounds of the concrete chain. -/
example : ∀ pass ∈ fpPasses, ∀ e, UnchangedWorld fpWire exExt id exSpec Config.default 9 pass.world e :=
  fun pass h e => QuietWorld.unchanged (fp_quiet pass h e)

/-- An input that does not fit: `2^32` public keys. -/
example (W : WireExt) (input : GuestInput) : ¬FitsGuest W (encodeInput W { input with publicKeys := List.replicate (2 ^ 32) [0] }) := by
  rintro ⟨-, h⟩
  have : (encodeSeq id (List.replicate (2 ^ 32) [(0 : UInt8)])).length ≤
      (encodeInput W { input with publicKeys := List.replicate (2 ^ 32) [0] }).length := by
    unfold encodeInput
    simp only [List.length_append]
    omega
  have h2 : (encodeSeq id (List.replicate (2 ^ 32) [(0 : UInt8)])).length = 8 + 2 ^ 32 := by
    rw [encodeSeq, List.length_append, List.map_id, List.flatten_replicate_singleton, List.length_replicate, encodeU64, leBytes_length,
      List.length_replicate]
  omega

end Signal
