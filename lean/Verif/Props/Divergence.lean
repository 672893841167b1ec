import Verif.Spec.Divergence
import Verif.Props.Shipped
import Verif.Props.History
import Verif.Proofs.ExampleDivergence
import Mathlib.Tactic.Linarith
import Mathlib.Tactic.Ring

/-!
# Property C82: what it takes to lead two light clients of mainnet or Sepolia apart

Specification: `Verif/Spec/Divergence.lean`, `Verif/Spec/Shipped.lean`, `Verif/Spec/Slashing.lean`.

Partial: `RealChainDigests` excludes proofs that go on below a leaf of the real header, state or registry. The hardness of SHA-256 does not: without the
condition the claim is false (`C40_one_deposit`, `C81_one_deposit`).
-/

namespace Signal
open Spec Wire

/-- Without the floor. -/
theorem share_unfloored {percent a v : Nat} (hp : 50 < percent) (ha : 2000000000 ≤ a)
    (h : percent * max 1000000000 a ≤ 100 * max 1000000000 v) : percent * a ≤ 100 * v := by
  rw [Nat.max_eq_right (by omega)] at h
  by_cases hv : 1000000000 ≤ v
  · rwa [Nat.max_eq_right hv] at h
  · have := Nat.mul_le_mul hp ha
    rw [Nat.max_eq_left (by omega)] at h
    omega

/-- The share of a set by which two majorities of nearly the same set overlap. -/
theorem share_overlap {percent a a' o u d : Nat} (hp : 50 < percent) (hp' : percent ≤ 100) (h : percent * (a + a') ≤ 100 * o + 100 * u)
    (h1 : u ≤ a + d) (h2 : u ≤ a' + d) : (2 * percent - 100) * a ≤ 100 * (o + d) := by
  obtain ⟨q, hq⟩ := Nat.exists_eq_add_of_le hp'
  obtain ⟨r, hr⟩ := Nat.exists_eq_add_of_le (show q ≤ percent by omega)
  have e : 2 * percent - 100 = r := by omega
  rw [e]
  have k1 := Nat.mul_le_mul_left q h1
  have k2 := Nat.mul_le_mul_left percent h2
  rw [hq] at h ⊢
  subst hr
  ring_nf at h k1 k2 ⊢
  linarith

theorem lesser_le (vs vs' : List Validator) (l : List Nat) : lesserBalance vs vs' l ≤ balanceOf vs l ∧ lesserBalance vs vs' l ≤ balanceOf vs' l := by
  unfold lesserBalance balanceOf
  induction l with
  | nil => simp
  | cons a l ih => simp only [List.map_cons, List.sum_cons]; omega

section

variable {W : WireExt} {sigValid : Bytes → Bool} (hW : WireLaws (Ssz.wire W sigValid)) (X : Ext)
  (hdomain : ∀ version root, X.computeDomain version root =
    Signing.computeDomain X.sha256 Signing.beaconAttester version root)
  (signed : Bytes → Bytes → Prop) (hu : Unforgeable X signed) {s : ForkSchedule} (ho : Ordered s) (hl : s.forks.length = 6)
  {v5 v6 : Bytes} {e5 e6 : Nat} (h5 : s.forks[4]? = some (v5, e5)) (h6 : s.forks[5]? = some (v6, e6))
  (hv : ∀ v ∈ s.genesisVersion :: s.forks.map (·.1), v.length = 4) (he5 : 4 < e5) (percent : Nat)

/-- The guest of a network. -/
abbrev networkGuest (W : WireExt) (sigValid : Bytes → Bool) (X : Ext) (s : ForkSchedule) (percent : Nat) (stdin : Bytes) : Res Unit Bytes :=
  guestMain (Ssz.wire W sigValid) X (networkSpec s (Signing.signingRoot X.sha256)) ⟨5, 6, 4, percent, 100⟩ stdin

include hW hdomain hu ho hl h5 h6 hv he5

/-- What a client that follows files has seen: one run of links, each carried by the validators of its proof. -/
theorem follows_run {chain : Chain} {pre post : ConsensusState} {files : List Bytes}
    (h : Follows (networkGuest W sigValid X s percent) pre files post)
    (hreal : RealFiles (Ssz.wire W sigValid) X (networkSpec s (Signing.signingRoot X.sha256)) chain files) :
    ∃ links, Run pre links post ∧ (files = [] → post = pre) ∧ (files ≠ [] → pre.finalized.epoch < post.finalized.epoch) ∧
      ∀ link ∈ links, ∃ file ∈ files, ∃ input, Reads (Ssz.wire W sigValid) X file input ∧ (∃ a ∈ input.attestations, linkOf a = link) ∧
        ∃ voters, CarriedBy X signed percent (if link.target.epoch < e6 then v5 else v6) (stateBehind chain input).genesisValidatorsRoot
          (registryBehind (networkSpec s (Signing.signingRoot X.sha256)) chain input) input.attestations link voters := by
  induction h with
  | nil p => exact ⟨[], .nil _, fun _ => rfl, fun h => absurd rfl h, fun _ h => absurd h (by simp)⟩
  | @cons p q r file journal files hg hread _ ih =>
    obtain ⟨links', hrun', hnil, hcons, hcar'⟩ := ih (fun f hf => hreal f (List.mem_cons_of_mem _ hf))
    obtain ⟨frame, input, post, slot, h1, h2, h3, h4, -, hah, hall⟩ := network_main hW X hdomain signed hu ho hl h5 h6 hv he5 percent hg
    rw [h4] at hread
    cases hread
    have hrd : Reads (Ssz.wire W sigValid) X file input := ⟨frame, h1, h2⟩
    obtain ⟨links, hb, hrun, hcar⟩ := hall _ _ (hreal file List.mem_cons_self input hrd)
    refine ⟨links ++ links', hrun.append hrun', fun h => (List.cons_ne_nil _ _ h).elim, fun _ => ?_, fun link hlink => ?_⟩
    · have := hah.1
      by_cases hf : files = []
      · rw [hnil hf]; exact this
      · exact Nat.lt_trans this (hcons hf)
    · rcases List.mem_append.1 hlink with hlink | hlink
      · exact ⟨file, List.mem_cons_self, input, hrd, hb.nonempty link hlink, (hcar link hlink).2.2⟩
      · obtain ⟨f, hf, h⟩ := hcar' link hlink
        exact ⟨f, List.mem_cons_of_mem _ hf, h⟩

/-- Two clients of a network. -/
theorem network_conflict (hp : 50 < percent) (hp' : percent ≤ 100) {chain : Chain} {pre post post' : ConsensusState} {files files' : List Bytes}
    (h : Follows (networkGuest W sigValid X s percent) pre files post) (h' : Follows (networkGuest W sigValid X s percent) pre files' post')
    (hne : files ≠ []) (hne' : files' ≠ [])
    (hreal : RealFiles (Ssz.wire W sigValid) X (networkSpec s (Signing.signingRoot X.sha256)) chain (files ++ files'))
    (hbig : Funded (Ssz.wire W sigValid) X (networkSpec s (Signing.signingRoot X.sha256)) chain (files ++ files'))
    {anc : Checkpoint → Checkpoint → Prop} (hanc : AncestryOf (Ssz.wire W sigValid) X anc (files ++ files'))
    (hconf : ¬ anc post.finalized post'.finalized) (hconf' : ¬ anc post'.finalized post.finalized) :
    ∃ file ∈ files, ∃ file' ∈ files', ∃ input input', Reads (Ssz.wire W sigValid) X file input ∧ Reads (Ssz.wire W sigValid) X file' input' ∧
      ∃ link link' offenders, Offence X signed percent (fun e => if e < e6 then v5 else v6)
        (networkSpec s (Signing.signingRoot X.sha256)) chain input input' link link' offenders := by
  have hml : ∀ {f}, f ∈ files → f ∈ files ++ files' := fun h => List.mem_append_left _ h
  have hmr : ∀ {f}, f ∈ files' → f ∈ files ++ files' := fun h => List.mem_append_right _ h
  obtain ⟨links, hrun, -, hlt, hcar⟩ := follows_run hW X hdomain signed hu ho hl h5 h6 hv he5 percent h (fun f hf => hreal f (hml hf))
  obtain ⟨links', hrun', -, hlt', hcar'⟩ := follows_run hW X hdomain signed hu ho hl h5 h6 hv he5 percent h' (fun f hf => hreal f (hmr hf))
  obtain ⟨l, hl, l', hl', hsl⟩ := conflict_slashable hrun hrun' (fun e => by have := hlt hne; rw [e] at this; omega)
    (fun e => by have := hlt' hne'; rw [e] at this; omega) hanc.refl hanc.trans
    (fun l hl => by
      obtain ⟨f, hf, input, hrd, ⟨a, ha, rfl⟩, -⟩ := hcar l hl
      exact hanc.votes f (hml hf) input hrd a ha)
    (fun l hl => by
      obtain ⟨f, hf, input, hrd, ⟨a, ha, rfl⟩, -⟩ := hcar' l hl
      exact hanc.votes f (hmr hf) input hrd a ha) hconf hconf'
  obtain ⟨f, hf, input, hrd, hvote, v, hc⟩ := hcar l hl
  obtain ⟨f', hf', input', hrd', hvote', v', hc'⟩ := hcar' l' hl'
  have b1 := hbig f (hml hf) input hrd l.target.epoch (by obtain ⟨a, ha, e⟩ := hvote; exact ⟨a, ha, e ▸ rfl⟩)
  have b2 := hbig f' (hmr hf') input' hrd' l'.target.epoch (by obtain ⟨a, ha, e⟩ := hvote'; exact ⟨a, ha, e ▸ rfl⟩)
  refine ⟨f, hf, f', hf', input, input', hrd, hrd', l, l', v.filter (fun i => decide (i ∈ v')), hvote, hvote', hsl, hc.distinct.filter _,
    fun i hi => ?_, fun i hi => ?_, ?_⟩
  · simp only [List.mem_filter, decide_eq_true_eq] at hi
    exact ⟨hc.active i hi.1, hc'.active i hi.2⟩
  · simp only [List.mem_filter, decide_eq_true_eq] at hi
    exact ⟨hc.signed i hi.1, hc'.signed i hi.2⟩
  · have t1 := share_unfloored hp b1 hc.share
    have t2 := share_unfloored hp b2 hc'.share
    have n1 := hc.distinct
    have n2 := hc'.distinct
    have m1 := hc.active
    have m2 := hc'.active
    clear hc hc' b1 b2
    dsimp only
    generalize registryBehind (networkSpec s (Signing.signingRoot X.sha256)) chain input = vs at *
    generalize registryBehind (networkSpec s (Signing.signingRoot X.sha256)) chain input' = vs' at *
    have hov := overlap_two (registeredBalance vs) (registeredBalance vs') v v'
      (union (activeIndices vs l.target.epoch) (activeIndices vs' l'.target.epoch)) n1 n2
      (by intro i hi; exact List.mem_append_left _ (m1 i hi))
      (by
        intro i hi
        by_cases h : i ∈ activeIndices vs l.target.epoch
        · exact List.mem_append_left _ h
        · exact List.mem_append_right _ (List.mem_filter.2 ⟨m2 i hi, by simpa using h⟩))
    have hmin := lesser_le vs vs' (v.filter (fun i => decide (i ∈ v')))
    have hsum : percent * (balanceOf vs (activeIndices vs l.target.epoch) + balanceOf vs' (activeIndices vs' l'.target.epoch)) ≤
        100 * lesserBalance vs vs' (v.filter (fun i => decide (i ∈ v'))) +
          100 * greaterBalance vs vs' (union (activeIndices vs l.target.epoch) (activeIndices vs' l'.target.epoch)) := by
      rw [Nat.mul_add]
      change balanceOf vs v + balanceOf vs' v' ≤ lesserBalance vs vs' (v.filter (fun i => decide (i ∈ v'))) + greaterBalance vs vs' _ at hov
      omega
    refine ⟨hsum, fun d h1 h2 => ⟨?_, ?_⟩⟩
    · exact Nat.le_trans (share_overlap hp hp' hsum h1 h2) (by omega)
    · rw [Nat.add_comm (balanceOf vs _)] at hsum
      exact Nat.le_trans (share_overlap hp hp' hsum h2 h1) (by omega)

/-- Two clients of a network with few dishonest validators. -/
theorem network_safe (hp : 50 < percent) (hp' : percent ≤ 100) {chain : Chain} {pre post post' : ConsensusState} {files files' : List Bytes}
    (h : Follows (networkGuest W sigValid X s percent) pre files post) (h' : Follows (networkGuest W sigValid X s percent) pre files' post')
    (hne : files ≠ []) (hne' : files' ≠ [])
    (hreal : RealFiles (Ssz.wire W sigValid) X (networkSpec s (Signing.signingRoot X.sha256)) chain (files ++ files'))
    (hbig : Funded (Ssz.wire W sigValid) X (networkSpec s (Signing.signingRoot X.sha256)) chain (files ++ files'))
    {anc : Checkpoint → Checkpoint → Prop} (hanc : AncestryOf (Ssz.wire W sigValid) X anc (files ++ files'))
    {dishonest : List Nat}
    (hhonest : HonestBut (Ssz.wire W sigValid) X signed (fun e => if e < e6 then v5 else v6) (networkSpec s (Signing.signingRoot X.sha256)) chain files files' dishonest)
    {d : Nat} (hsteady : SteadyStake (Ssz.wire W sigValid) X (networkSpec s (Signing.signingRoot X.sha256)) chain files files' d)
    (hfew : FewerThan (Ssz.wire W sigValid) X (networkSpec s (Signing.signingRoot X.sha256)) chain files (2 * percent - 100) dishonest d) :
    anc post.finalized post'.finalized ∨ anc post'.finalized post.finalized := by
  by_contra hcon
  obtain ⟨hc1, hc2⟩ := not_or.1 hcon
  obtain ⟨f, hf, f', hf', input, input', hrd, hrd', l, l', off, ho⟩ := network_conflict hW X hdomain signed hu ho hl h5 h6 hv he5 percent hp hp'
    h h' hne hne' hreal hbig hanc hc1 hc2
  have hsub : ∀ i ∈ off, i ∈ dishonest := by
    intro i hi
    by_contra hni
    obtain ⟨a1, a2⟩ := ho.active i hi
    obtain ⟨hroot, hk, hn⟩ := hhonest f hf f' hf' input input' hrd hrd' i _ _ a1 a2 hni
    obtain ⟨⟨x, x1, x2, -, -, -, x4⟩, ⟨y, y1, y2, -, -, -, y4⟩⟩ := ho.signed i hi
    rw [← hk, ← hroot] at y4
    have hsl := ho.slashable
    rw [← x2] at x4 hsl
    rw [← y2] at y4 hsl
    exact hn x x1 y y1 x4 y4 hsl
  have hle := sum_le_of_subset (registeredBalance (registryBehind (networkSpec s (Signing.signingRoot X.sha256)) chain input)) off dishonest
    ho.distinct hsub
  have ht : Targets input l.target.epoch := by obtain ⟨a, ha, e⟩ := ho.votes; exact ⟨a, ha, e ▸ rfl⟩
  have ht' : Targets input' l'.target.epoch := by obtain ⟨a, ha, e⟩ := ho.votes'; exact ⟨a, ha, e ▸ rfl⟩
  obtain ⟨d1, d2⟩ := hsteady f hf f' hf' input input' hrd hrd' _ _ ht ht'
  have hw := (ho.weight.2 d d1 d2).1
  have := hfew f hf input hrd _ ht
  simp only [balanceOf] at hw this hle
  omega

end

/-- **C82.** Two light clients of mainnet. -/
theorem C82_mainnet_partial (W : WireExt) (sigValid : Bytes → Bool) (hW : WireLaws (Ssz.wire W sigValid)) (X : Ext)
    (hdomain : ∀ version root, X.computeDomain version root =
      Signing.computeDomain X.sha256 Signing.beaconAttester version root)
    (signed : Bytes → Bytes → Prop) (hu : Unforgeable X signed) (chain : Chain) (pre post post' : ConsensusState) (files files' : List Bytes)
    (h : Follows (guestMain (Ssz.wire W sigValid) X (mainnetOf X) Config.default) pre files post)
    (h' : Follows (guestMain (Ssz.wire W sigValid) X (mainnetOf X) Config.default) pre files' post')
    (hne : files ≠ []) (hne' : files' ≠ [])
    (hreal : RealFiles (Ssz.wire W sigValid) X (mainnetOf X) chain (files ++ files'))
    (hbig : Funded (Ssz.wire W sigValid) X (mainnetOf X) chain (files ++ files'))
    (anc : Checkpoint → Checkpoint → Prop) (hanc : AncestryOf (Ssz.wire W sigValid) X anc (files ++ files'))
    (hconf : ¬ anc post.finalized post'.finalized) (hconf' : ¬ anc post'.finalized post.finalized) :
    ∃ file ∈ files, ∃ file' ∈ files', ∃ input input', Reads (Ssz.wire W sigValid) X file input ∧ Reads (Ssz.wire W sigValid) X file' input' ∧
      ∃ link link' offenders, Offence X signed 85 (fun e => if e < 411392 then [5, 0, 0, 0] else [6, 0, 0, 0])
        (mainnetOf X) chain input input' link link' offenders :=
  network_conflict hW X hdomain signed hu mainnet_ordered rfl rfl rfl (by decide) (by decide) 85 (by decide) (by decide) h h' hne hne' hreal
    hbig hanc hconf hconf'

/-- **C82.** Two light clients of mainnet with few dishonest validators. -/
theorem C82_mainnet_safe_partial (W : WireExt) (sigValid : Bytes → Bool) (hW : WireLaws (Ssz.wire W sigValid)) (X : Ext)
    (hdomain : ∀ version root, X.computeDomain version root =
      Signing.computeDomain X.sha256 Signing.beaconAttester version root)
    (signed : Bytes → Bytes → Prop) (hu : Unforgeable X signed) (chain : Chain) (pre post post' : ConsensusState) (files files' : List Bytes)
    (h : Follows (guestMain (Ssz.wire W sigValid) X (mainnetOf X) Config.default) pre files post)
    (h' : Follows (guestMain (Ssz.wire W sigValid) X (mainnetOf X) Config.default) pre files' post')
    (hne : files ≠ []) (hne' : files' ≠ [])
    (hreal : RealFiles (Ssz.wire W sigValid) X (mainnetOf X) chain (files ++ files'))
    (hbig : Funded (Ssz.wire W sigValid) X (mainnetOf X) chain (files ++ files'))
    (anc : Checkpoint → Checkpoint → Prop) (hanc : AncestryOf (Ssz.wire W sigValid) X anc (files ++ files'))
    (dishonest : List Nat) (hhonest : HonestBut (Ssz.wire W sigValid) X signed (fun e => if e < 411392 then [5, 0, 0, 0] else [6, 0, 0, 0]) (mainnetOf X) chain files files' dishonest)
    (d : Nat) (hsteady : SteadyStake (Ssz.wire W sigValid) X (mainnetOf X) chain files files' d)
    (hfew : FewerThan (Ssz.wire W sigValid) X (mainnetOf X) chain files 70 dishonest d) :
    anc post.finalized post'.finalized ∨ anc post'.finalized post.finalized :=
  network_safe hW X hdomain signed hu mainnet_ordered rfl rfl rfl (by decide) (by decide) 85 (by decide) (by decide) h h' hne hne' hreal
    hbig hanc hhonest hsteady hfew

/-- **C82.** Two light clients of Sepolia. -/
theorem C82_sepolia_partial (W : WireExt) (sigValid : Bytes → Bool) (hW : WireLaws (Ssz.wire W sigValid)) (X : Ext)
    (hdomain : ∀ version root, X.computeDomain version root =
      Signing.computeDomain X.sha256 Signing.beaconAttester version root)
    (signed : Bytes → Bytes → Prop) (hu : Unforgeable X signed) (chain : Chain) (pre post post' : ConsensusState) (files files' : List Bytes)
    (h : Follows (guestMain (Ssz.wire W sigValid) X (sepoliaOf X) Config.sepolia) pre files post)
    (h' : Follows (guestMain (Ssz.wire W sigValid) X (sepoliaOf X) Config.sepolia) pre files' post')
    (hne : files ≠ []) (hne' : files' ≠ [])
    (hreal : RealFiles (Ssz.wire W sigValid) X (sepoliaOf X) chain (files ++ files'))
    (hbig : Funded (Ssz.wire W sigValid) X (sepoliaOf X) chain (files ++ files'))
    (anc : Checkpoint → Checkpoint → Prop) (hanc : AncestryOf (Ssz.wire W sigValid) X anc (files ++ files'))
    (hconf : ¬ anc post.finalized post'.finalized) (hconf' : ¬ anc post'.finalized post.finalized) :
    ∃ file ∈ files, ∃ file' ∈ files', ∃ input input', Reads (Ssz.wire W sigValid) X file input ∧ Reads (Ssz.wire W sigValid) X file' input' ∧
      ∃ link link' offenders, Offence X signed 70 (fun e => if e < 272640 then [0x90, 0, 0, 0x74] else [0x90, 0, 0, 0x75])
        (sepoliaOf X) chain input input' link link' offenders :=
  network_conflict hW X hdomain signed hu sepolia_ordered rfl rfl rfl (by decide) (by decide) 70 (by decide) (by decide) h h' hne hne' hreal
    hbig hanc hconf hconf'

/-- **C82.** Two light clients of Sepolia with few dishonest validators. -/
theorem C82_sepolia_safe_partial (W : WireExt) (sigValid : Bytes → Bool) (hW : WireLaws (Ssz.wire W sigValid)) (X : Ext)
    (hdomain : ∀ version root, X.computeDomain version root =
      Signing.computeDomain X.sha256 Signing.beaconAttester version root)
    (signed : Bytes → Bytes → Prop) (hu : Unforgeable X signed) (chain : Chain) (pre post post' : ConsensusState) (files files' : List Bytes)
    (h : Follows (guestMain (Ssz.wire W sigValid) X (sepoliaOf X) Config.sepolia) pre files post)
    (h' : Follows (guestMain (Ssz.wire W sigValid) X (sepoliaOf X) Config.sepolia) pre files' post')
    (hne : files ≠ []) (hne' : files' ≠ [])
    (hreal : RealFiles (Ssz.wire W sigValid) X (sepoliaOf X) chain (files ++ files'))
    (hbig : Funded (Ssz.wire W sigValid) X (sepoliaOf X) chain (files ++ files'))
    (anc : Checkpoint → Checkpoint → Prop) (hanc : AncestryOf (Ssz.wire W sigValid) X anc (files ++ files'))
    (dishonest : List Nat) (hhonest : HonestBut (Ssz.wire W sigValid) X signed (fun e => if e < 272640 then [0x90, 0, 0, 0x74] else [0x90, 0, 0, 0x75])
      (sepoliaOf X) chain files files' dishonest)
    (d : Nat) (hsteady : SteadyStake (Ssz.wire W sigValid) X (sepoliaOf X) chain files files' d)
    (hfew : FewerThan (Ssz.wire W sigValid) X (sepoliaOf X) chain files 40 dishonest d) :
    anc post.finalized post'.finalized ∨ anc post'.finalized post.finalized :=
  network_safe hW X hdomain signed hu sepolia_ordered rfl rfl rfl (by decide) (by decide) 70 (by decide) (by decide) h h' hne hne' hreal
    hbig hanc hhonest hsteady hfew

/-! ## Concrete cases

Ten validators of 32 ETH each on mainnet, and on Sepolia; nine of them sign for two blocks of the last epoch before Fulu. -/

/-- Block and state behind the start. -/
def dvChain (n : Net) : Chain := fun _ => (n.hdr, n.state)

theorem dv_reads {input : GuestInput} (hf : InputFits (Ssz.wire exWire (fun _ => true)) (2 ^ 32) input)
    (hs : (encodeInput (Ssz.wire exWire (fun _ => true)) input).length < 2 ^ 32) {i : GuestInput}
    (h : Reads (Ssz.wire exWire (fun _ => true)) exExt (Frame.encodeInputStdin (encodeInput (Ssz.wire exWire (fun _ => true)) input)) i) :
    i = input := by
  obtain ⟨frame, h1, h2⟩ := h
  have hr := readFrame_append _ [] hs
  rw [List.append_nil] at hr
  rw [hr, Option.some.injEq] at h1
  have hd := C63_round_trip _ szWire_laws exExt.usizeMod (by decide) (by decide) input hf []
  rw [List.append_nil, h1, h2, Option.some.injEq] at hd
  exact hd

section
variable {n : Net} (hn : n.Shipped)
include hn

theorem dv_reads_one {i : GuestInput} (h : Reads (Ssz.wire exWire (fun _ => true)) exExt n.file i) : i = n.input :=
  dv_reads (Net.input_fits hn) (Net.input_size hn) h

theorem dv_reads_two {i : GuestInput} (h : Reads (Ssz.wire exWire (fun _ => true)) exExt (Fork.file n) i) : i = Fork.input n :=
  dv_reads (Fork.input_fits hn) (Fork.input_size hn) h

theorem dv_pre : WfState ⟨n.justified, n.trusted⟩ := by
  rcases hn with rfl | rfl <;> exact ⟨⟨by decide, by decide⟩, by decide, exExt.sha256_length _⟩

/-- The first client. -/
theorem dv_follows : Follows (guestMain (Ssz.wire exWire (fun _ => true)) exExt n.spec n.cfg)
    ⟨n.justified, n.trusted⟩ [n.file] ⟨n.first, n.last⟩ := by
  have hr := dv_pre hn
  have hg := Net.file_runs (ε := Unit) hn
  rcases hn with rfl | rfl <;>
  exact .cons hg
    (C07_journal_round_trip _ _ _ hr (Or.inl (by decide)) ⟨⟨by decide, by decide⟩, by decide, exExt.sha256_length _⟩ (Or.inl (by decide))
      (by decide)).2.1 (.nil _)

/-- The second client. -/
theorem dv_follows' : Follows (guestMain (Ssz.wire exWire (fun _ => true)) exExt n.spec n.cfg)
    ⟨n.justified, n.trusted⟩ [Fork.file n] ⟨Fork.first n, Fork.last n⟩ := by
  have hr := dv_pre hn
  have hg := Fork.file_runs (ε := Unit) hn
  rcases hn with rfl | rfl <;>
  exact .cons hg
    (C07_journal_round_trip _ _ _ hr (Or.inl (by decide)) ⟨⟨by decide, by decide⟩, by decide, exExt.sha256_length _⟩ (Or.inl (by decide))
      (by decide)).2.1 (.nil _)

/-- What is read from either file. -/
theorem dv_inputs {f : Bytes} (hf : f ∈ [n.file] ++ [Fork.file n]) {i : GuestInput}
    (h : Reads (Ssz.wire exWire (fun _ => true)) exExt f i) : i = n.input ∨ i = Fork.input n := by
  simp only [List.cons_append, List.nil_append, List.mem_cons, List.not_mem_nil, or_false] at hf
  rcases hf with rfl | rfl
  · exact Or.inl (dv_reads_one hn h)
  · exact Or.inr (dv_reads_two hn h)

theorem dv_real : RealFiles (Ssz.wire exWire (fun _ => true)) exExt n.spec (dvChain n) ([n.file] ++ [Fork.file n]) := by
  intro f hf input hr
  rcases dv_inputs hn hf hr with rfl | rfl
  · exact Net.input_real hn
  · exact Fork.input_real hn

/-- The registry behind either file. -/
def dvVs (n : Net) : List Validator := registryOf n.spec n.state ⟨n.justified, n.trusted⟩

omit hn in
theorem dv_registry {i : GuestInput} (h : i = n.input ∨ i = Fork.input n) : registryBehind n.spec (dvChain n) i = dvVs n := by
  rcases h with rfl | rfl <;> rfl

omit hn in
theorem dv_targets {i : GuestInput} (h : i = n.input ∨ i = Fork.input n) {e : Nat} (he : Targets i e) : e = n.fuluEpoch - 1 ∨ e = n.fuluEpoch := by
  obtain ⟨a, ha, rfl⟩ := he
  rcases h with rfl | rfl
  all_goals
    rcases List.mem_append.1 ha with ha | ha
    · obtain ⟨c, -, rfl⟩ := List.mem_map.1 ha
      exact Or.inl rfl
    · obtain ⟨c, -, rfl⟩ := List.mem_map.1 ha
      exact Or.inr rfl

set_option maxRecDepth 100000 in
theorem dv_weights : (∀ e ∈ [n.fuluEpoch - 1, n.fuluEpoch], activeIndices (dvVs n) e = List.range 10) ∧
    balanceOf (dvVs n) (List.range 10) = 320000000000 ∧ greaterBalance (dvVs n) (dvVs n) (List.range 10) = 320000000000 ∧
    balanceOf (dvVs n) [0, 1, 2, 3, 4, 5] = 192000000000 ∧ balanceOf (dvVs n) [0, 1, 2] = 96000000000 := by
  rcases hn with rfl | rfl <;> decide +kernel

theorem dv_active {i : GuestInput} (h : i = n.input ∨ i = Fork.input n) {e : Nat} (he : Targets i e) :
    activeIndices (dvVs n) e = List.range 10 :=
  (dv_weights hn).1 e (by simpa using dv_targets h he)

theorem dv_funded : Funded (Ssz.wire exWire (fun _ => true)) exExt n.spec (dvChain n) ([n.file] ++ [Fork.file n]) := by
  intro f hf input hr e he
  have hi := dv_inputs hn hf hr
  rw [dv_registry hi, dv_active hn hi he, (dv_weights hn).2.1]
  decide

/-- The ancestry of the checkpoints. -/
def dvAnc (n : Net) (a b : Checkpoint) : Prop :=
  a = b ∨ a = n.justified ∨ (a = n.last ∧ b = n.first) ∨ (a = Fork.last n ∧ b = Fork.first n)

theorem dvAnc_trans (a b c : Checkpoint) (h : dvAnc n a b) (h' : dvAnc n b c) : dvAnc n a c := by
  rcases h with rfl | rfl | ⟨rfl, rfl⟩ | ⟨rfl, rfl⟩
  · exact h'
  · exact Or.inr (Or.inl rfl)
  · rcases h' with rfl | h' | ⟨h', -⟩ | ⟨h', -⟩
    · exact Or.inr (Or.inr (Or.inl ⟨rfl, rfl⟩))
    all_goals rcases hn with rfl | rfl <;> exact absurd (congrArg Checkpoint.epoch h') (by decide)
  · rcases h' with rfl | h' | ⟨h', -⟩ | ⟨h', -⟩
    · exact Or.inr (Or.inr (Or.inr ⟨rfl, rfl⟩))
    all_goals rcases hn with rfl | rfl <;> exact absurd (congrArg Checkpoint.epoch h') (by decide)

omit hn in
theorem dv_votes : ∀ a ∈ n.votes, dvAnc n a.data.source a.data.target := by
  intro a ha
  rcases List.mem_append.1 ha with ha | ha
  · obtain ⟨c, -, rfl⟩ := List.mem_map.1 ha
    exact Or.inr (Or.inl rfl)
  · obtain ⟨c, -, rfl⟩ := List.mem_map.1 ha
    exact Or.inr (Or.inr (Or.inl ⟨rfl, rfl⟩))

omit hn in
theorem dv_votes' : ∀ a ∈ Fork.votes n, dvAnc n a.data.source a.data.target := by
  intro a ha
  rcases List.mem_append.1 ha with ha | ha
  · obtain ⟨c, -, rfl⟩ := List.mem_map.1 ha
    exact Or.inr (Or.inl rfl)
  · obtain ⟨c, -, rfl⟩ := List.mem_map.1 ha
    exact Or.inr (Or.inr (Or.inr ⟨rfl, rfl⟩))

theorem dv_ancestry : AncestryOf (Ssz.wire exWire (fun _ => true)) exExt (dvAnc n) ([n.file] ++ [Fork.file n]) where
  refl _ := Or.inl rfl
  trans := dvAnc_trans hn
  votes := by
    intro f hf input hr
    rcases dv_inputs hn hf hr with rfl | rfl
    · exact dv_votes
    · exact dv_votes'

set_option maxRecDepth 100000 in
theorem dv_lasts : n.last ≠ Fork.last n := by rcases hn with rfl | rfl <;> decide +kernel

theorem dv_conflict : ¬ dvAnc n n.last (Fork.last n) ∧ ¬ dvAnc n (Fork.last n) n.last := by
  have hl := dv_lasts hn
  constructor
  · rintro (h | h | ⟨-, h⟩ | ⟨-, h⟩)
    · exact hl h
    all_goals rcases hn with rfl | rfl <;> exact absurd (congrArg Checkpoint.epoch h) (by decide)
  · rintro (h | h | ⟨-, h⟩ | ⟨-, h⟩)
    · exact hl h.symm
    all_goals rcases hn with rfl | rfl <;> exact absurd (congrArg Checkpoint.epoch h) (by decide)

/-- No two votes of the first file are slashable together. -/
theorem dv_together : ∀ a ∈ n.votes, ∀ a' ∈ n.votes, ¬ Slashable (linkOf a) (linkOf a') := by
  have hl : ∀ a ∈ n.votes, linkOf a = ⟨n.justified, n.last⟩ ∨ linkOf a = ⟨n.last, n.first⟩ := by
    intro a ha
    rcases List.mem_append.1 ha with ha | ha
    · obtain ⟨c, -, rfl⟩ := List.mem_map.1 ha
      exact Or.inl rfl
    · obtain ⟨c, -, rfl⟩ := List.mem_map.1 ha
      exact Or.inr rfl
  intro a ha a' ha'
  rcases hl a ha with e | e <;> rcases hl a' ha' with e' | e' <;> rw [e, e'] <;> rintro (⟨h, h'⟩ | ⟨h, h'⟩ | ⟨h, h'⟩) <;> first
    | exact h rfl
    | (rcases hn with rfl | rfl <;> first | exact absurd h' (by decide) | exact absurd h (by decide))

/-- What the offenders of the example have at least, and who they are. -/
theorem dv_offence {percent : Nat} {version : Nat → Bytes} {f f' : Bytes} (hf : f ∈ [n.file]) (hf' : f' ∈ [Fork.file n]) {input input' : GuestInput}
    (hr : Reads (Ssz.wire exWire (fun _ => true)) exExt f input) (hr' : Reads (Ssz.wire exWire (fun _ => true)) exExt f' input')
    {link link' : Link} {offenders : List Nat} (ho : Offence exExt swSigned percent version n.spec (dvChain n) input input' link link' offenders) :
    Slashable link link' ∧ offenders.Nodup ∧ (2 * percent - 100) * 320000000000 ≤ 100 * balanceOf (dvVs n) offenders ∧
    ∀ i ∈ offenders, SignedFor exExt swSigned (version link.target.epoch) n.state.genesisValidatorsRoot (registeredKey (dvVs n) i) n.votes link := by
  obtain rfl := List.mem_singleton.1 hf
  obtain rfl := List.mem_singleton.1 hf'
  have e1 := dv_reads_one hn hr
  have e2 := dv_reads_two hn hr'
  have r1 := dv_registry (Or.inl e1)
  have r2 := dv_registry (Or.inr e2)
  have t1 : Targets input link.target.epoch := by obtain ⟨a, ha, e⟩ := ho.votes; exact ⟨a, ha, e ▸ rfl⟩
  have t2 : Targets input' link'.target.epoch := by obtain ⟨a, ha, e⟩ := ho.votes'; exact ⟨a, ha, e ▸ rfl⟩
  have hu : union (List.range 10) (List.range 10) = List.range 10 := by decide
  obtain ⟨-, w1, w2, -⟩ := dv_weights hn
  have hw := ho.weight.2 0
  rw [r1, r2, dv_active hn (Or.inl e1) t1, dv_active hn (Or.inr e2) t2, hu, w1, w2] at hw
  refine ⟨ho.slashable, ho.distinct, (hw (Nat.le_refl _) (Nat.le_refl _)).1, fun i hi => ?_⟩
  have := (ho.signed i hi).1
  rw [r1] at this
  subst e1
  exact this

omit hn in
theorem dv_once : ∀ f ∈ [n.file] ++ [n.file], f ∈ [n.file] ++ [Fork.file n] := by simp

theorem dv_once_ancestry : AncestryOf (Ssz.wire exWire (fun _ => true)) exExt (dvAnc n) ([n.file] ++ [n.file]) :=
  ⟨(dv_ancestry hn).refl, (dv_ancestry hn).trans, fun f hf => (dv_ancestry hn).votes f (dv_once f hf)⟩

theorem dv_honest (version : Nat → Bytes) (dishonest : List Nat) :
    HonestBut (Ssz.wire exWire (fun _ => true)) exExt swSigned version n.spec (dvChain n) [n.file] [n.file] dishonest := by
  intro f hf f' hf' i i' hr hr' v e e' _ _ _
  obtain rfl := List.mem_singleton.1 hf
  obtain rfl := List.mem_singleton.1 hf'
  rw [dv_reads_one hn hr, dv_reads_one hn hr']
  exact ⟨rfl, rfl, fun a ha a' ha' _ _ => dv_together hn a ha a' ha'⟩

theorem dv_steady : SteadyStake (Ssz.wire exWire (fun _ => true)) exExt n.spec (dvChain n) [n.file] [n.file] 0 := by
  intro f hf f' hf' i i' hr hr' e e' he he'
  have e1 := dv_reads_one hn (List.mem_singleton.1 hf ▸ hr)
  have e2 := dv_reads_one hn (List.mem_singleton.1 hf' ▸ hr')
  obtain ⟨-, w1, w2, -⟩ := dv_weights hn
  dsimp only
  rw [dv_registry (Or.inl e1), dv_registry (Or.inl e2), dv_active hn (Or.inl e1) he, dv_active hn (Or.inl e2) he',
    show union (List.range 10) (List.range 10) = List.range 10 by decide, w1, w2]
  omega

theorem dv_few {percent : Nat} {dishonest : List Nat} (h : 100 * (balanceOf (dvVs n) dishonest + 0) < percent * 320000000000) :
    FewerThan (Ssz.wire exWire (fun _ => true)) exExt n.spec (dvChain n) [n.file] percent dishonest 0 := by
  intro f hf i hr e he
  have e1 := dv_reads_one hn (List.mem_singleton.1 hf ▸ hr)
  rw [dv_registry (Or.inl e1), dv_active hn (Or.inl e1) he, (dv_weights hn).2.1]
  exact h

end

theorem dv_mainnet : mainnetOf exExt = Net.mainnet.spec := rfl
theorem dv_sepolia : sepoliaOf exExt = Net.sepolia.spec := rfl
theorem dv_mainnet_cfg : Config.default = Net.mainnet.cfg := rfl
theorem dv_sepolia_cfg : Config.sepolia = Net.sepolia.cfg := rfl

/-- The two clients of mainnet hold conflicting finalized checkpoints, and validators with 224 of the 320 ETH are slashable. -/
example : ∃ link link' offenders, Slashable link link' ∧ offenders.Nodup ∧
    224000000000 ≤ balanceOf (dvVs Net.mainnet) offenders ∧
    ∀ i ∈ offenders, SignedFor exExt swSigned (if link.target.epoch < 411392 then [5, 0, 0, 0] else [6, 0, 0, 0]) (exRoot32 77)
      (registeredKey (dvVs Net.mainnet) i) Net.mainnet.votes link := by
  have hn : Net.mainnet.Shipped := Or.inl rfl
  have key := C82_mainnet_partial exWire (fun _ => true) szWire_laws exExt (fun _ _ => rfl) swSigned swSigned_unforgeable
  rw [dv_mainnet, dv_mainnet_cfg] at key
  obtain ⟨f, hf, f', hf', input, input', hr, hr', l, l', off, ho⟩ := key (dvChain Net.mainnet) _ _ _ _ _ (dv_follows hn) (dv_follows' hn) (by simp) (by simp) (dv_real hn)
    (dv_funded hn) (dvAnc Net.mainnet) (dv_ancestry hn) (dv_conflict hn).1 (dv_conflict hn).2
  have h := dv_offence hn hf hf' hr hr' ho
  exact ⟨l, l', off, h.1, h.2.1, by have := h.2.2.1; omega, h.2.2.2⟩

/-- The two clients of Sepolia: 128 of the 320 ETH. -/
example : ∃ link link' offenders, Slashable link link' ∧ offenders.Nodup ∧
    128000000000 ≤ balanceOf (dvVs Net.sepolia) offenders ∧
    ∀ i ∈ offenders, SignedFor exExt swSigned (if link.target.epoch < 272640 then [0x90, 0, 0, 0x74] else [0x90, 0, 0, 0x75]) (exRoot32 77)
      (registeredKey (dvVs Net.sepolia) i) Net.sepolia.votes link := by
  have hn : Net.sepolia.Shipped := Or.inr rfl
  have key := C82_sepolia_partial exWire (fun _ => true) szWire_laws exExt (fun _ _ => rfl) swSigned swSigned_unforgeable
  rw [dv_sepolia, dv_sepolia_cfg] at key
  obtain ⟨f, hf, f', hf', input, input', hr, hr', l, l', off, ho⟩ := key (dvChain Net.sepolia) _ _ _ _ _ (dv_follows hn) (dv_follows' hn) (by simp) (by simp) (dv_real hn)
    (dv_funded hn) (dvAnc Net.sepolia) (dv_ancestry hn) (dv_conflict hn).1 (dv_conflict hn).2
  have h := dv_offence hn hf hf' hr hr' ho
  exact ⟨l, l', off, h.1, h.2.1, by have := h.2.2.1; omega, h.2.2.2⟩

/-- Two clients of mainnet that follow the first file, with six of the ten dishonest. -/
example : dvAnc Net.mainnet Net.mainnet.last Net.mainnet.last ∨ dvAnc Net.mainnet Net.mainnet.last Net.mainnet.last := by
  have hn : Net.mainnet.Shipped := Or.inl rfl
  have key := C82_mainnet_safe_partial exWire (fun _ => true) szWire_laws exExt (fun _ _ => rfl) swSigned swSigned_unforgeable
  rw [dv_mainnet, dv_mainnet_cfg] at key
  exact key (dvChain Net.mainnet) _ _ _ _ _
    (dv_follows hn) (dv_follows hn) (by simp) (by simp) (fun f hf => dv_real hn f (dv_once f hf)) (fun f hf => dv_funded hn f (dv_once f hf))
    (dvAnc Net.mainnet) (dv_once_ancestry hn) [0, 1, 2, 3, 4, 5] (dv_honest hn _ _) 0 (dv_steady hn)
    (dv_few hn (by rw [(dv_weights hn).2.2.2.1]; decide))

/-- Two clients of Sepolia that follow the first file, with three of the ten dishonest. -/
example : dvAnc Net.sepolia Net.sepolia.last Net.sepolia.last ∨ dvAnc Net.sepolia Net.sepolia.last Net.sepolia.last := by
  have hn : Net.sepolia.Shipped := Or.inr rfl
  have key := C82_sepolia_safe_partial exWire (fun _ => true) szWire_laws exExt (fun _ _ => rfl) swSigned swSigned_unforgeable
  rw [dv_sepolia, dv_sepolia_cfg] at key
  exact key (dvChain Net.sepolia) _ _ _ _ _
    (dv_follows hn) (dv_follows hn) (by simp) (by simp) (fun f hf => dv_real hn f (dv_once f hf)) (fun f hf => dv_funded hn f (dv_once f hf))
    (dvAnc Net.sepolia) (dv_once_ancestry hn) [0, 1, 2] (dv_honest hn _ _) 0 (dv_steady hn)
    (dv_few hn (by rw [(dv_weights hn).2.2.2.2]; decide))

end Signal
