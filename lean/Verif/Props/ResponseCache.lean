import Verif.Model.ResponseCache
import Verif.Props.BuildNode

/-!
# C86: a client with a response cache
-/

namespace Signal
open Spec Client Program Wire

namespace Spec

/-- Before the `n`-th request of `log`, the reply `r` was the first one to `req` that the cache keeps. -/
def FirstKept (keeps : Reply → Bool) (log : List (Request × Reply)) (req : Request) (n : Nat) (r : Reply) : Prop :=
  ∃ j < n, log[j]? = some (req, r) ∧ keeps r = true ∧ ∀ k < j, ∀ r', log[k]? = some (req, r') → keeps r' = false

end Spec

section cache
variable (keeps : Reply → Bool)

theorem sendAll_append (store : Store) (a b : List (Request × Reply)) :
    sendAll keeps store (a ++ b) = ((sendAll keeps store a).1 ++ (sendAll keeps (sendAll keeps store a).2 b).1,
      (sendAll keeps (sendAll keeps store a).2 b).2) := by
  induction a generalizing store with
  | nil => rfl
  | cons x a ih =>
    obtain ⟨req, node⟩ := x
    simp only [List.cons_append, sendAll, ih]

theorem sendAll_length (store : Store) (log : List (Request × Reply)) : (sendAll keeps store log).1.length = log.length := by
  induction log generalizing store with
  | nil => rfl
  | cons x a ih => simp only [sendAll, List.length_cons, ih]

theorem stored_cons (e : Request × Reply) (store : Store) (req : Request) :
    stored (e :: store) req = if e.1 = req then some e.2 else stored store req := by
  unfold stored
  by_cases h : e.1 = req <;> simp [h]

theorem firstKept_succ {log : List (Request × Reply)} {x : Request × Reply} {req : Request} {r : Reply} :
    FirstKept keeps (log ++ [x]) req (log.length + 1) r ↔ FirstKept keeps log req log.length r ∨
      (x = (req, r) ∧ keeps r = true ∧ ∀ k < log.length, ∀ r', log[k]? = some (req, r') → keeps r' = false) := by
  constructor
  · rintro ⟨j, hj, h1, h2, h3⟩
    rcases Nat.lt_succ_iff_lt_or_eq.1 hj with h | rfl
    · rw [List.getElem?_append_left h] at h1
      exact .inl ⟨j, h, h1, h2, fun k hk r' hr => h3 k hk r' (by rw [List.getElem?_append_left (by omega)]; exact hr)⟩
    · rw [List.getElem?_concat_length] at h1
      exact .inr ⟨Option.some.inj h1, h2, fun k hk r' hr => h3 k hk r' (by rw [List.getElem?_append_left hk]; exact hr)⟩
  · rintro (⟨j, hj, h1, h2, h3⟩ | ⟨rfl, h2, h3⟩)
    · refine ⟨j, by omega, by rw [List.getElem?_append_left hj]; exact h1, h2, fun k hk r' hr => h3 k hk r' ?_⟩
      rwa [List.getElem?_append_left (by omega)] at hr
    · refine ⟨log.length, by omega, List.getElem?_concat_length, h2, fun k hk r' hr => h3 k hk r' ?_⟩
      rwa [List.getElem?_append_left hk] at hr

/-- The directory after a sequence of requests. -/
theorem stored_sendAll (log : List (Request × Reply)) (req : Request) (r : Reply) :
    stored (sendAll keeps [] log).2 req = some r ↔ FirstKept keeps log req log.length r := by
  induction log using List.reverseRecOn generalizing req r with
  | nil =>
    simp only [sendAll, stored, List.find?_nil, Option.map_none, reduceCtorEq, FirstKept, List.length_nil, Nat.not_lt_zero,
      false_and, exists_false]
  | append_singleton log x ih =>
    obtain ⟨q, node⟩ := x
    rw [sendAll_append, List.length_append, List.length_singleton, firstKept_succ]
    show stored (send keeps (sendAll keeps [] log).2 q node).2 req = some r ↔ _
    unfold send
    cases hq : stored (sendAll keeps [] log).2 q with
    | some r0 =>
      rw [ih]
      constructor
      · exact .inl
      · rintro (h | ⟨h1, h2, h3⟩)
        · exact h
        · cases h1
          rw [ih] at hq
          obtain ⟨j, hj, g1, g2, -⟩ := hq
          rw [h3 j hj _ g1] at g2
          cases g2
    | none =>
      have none_kept : ∀ k < log.length, ∀ r', log[k]? = some (q, r') → keeps r' = false := by
        intro k
        induction k using Nat.strong_induction_on with
        | _ k ihk =>
          intro hk r' hr
          by_contra hne
          have : FirstKept keeps log q log.length r' :=
            ⟨k, hk, hr, by simpa using hne, fun m hm r'' h'' => ihk m hm (by omega) r'' h''⟩
          rw [← ih, hq] at this
          cases this
      dsimp only
      by_cases hk : keeps node = true
      · rw [if_pos hk, stored_cons]
        dsimp only
        by_cases hqr : q = req
        · subst hqr
          rw [if_pos rfl]
          constructor
          · intro h
            cases h
            exact .inr ⟨rfl, hk, none_kept⟩
          · rintro (h | ⟨h1, -⟩)
            · rw [← ih, hq] at h
              cases h
            · cases h1
              rfl
        · rw [if_neg hqr, ih]
          exact ⟨.inl, fun h => h.elim id (fun h => absurd (congrArg Prod.fst h.1) hqr)⟩
      · rw [if_neg hk, ih]
        refine ⟨.inl, fun h => h.elim id (fun h => ?_)⟩
        obtain ⟨h1, h2, -⟩ := h
        cases h1
        exact absurd h2 hk

/-- **C86.** What a client with a response cache gets, for every sequence of requests and whatever the node replies: for each request
the first reply to the same request that was kept, or, if there is none, what the node replies now. -/
theorem C86_answers (log : List (Request × Reply)) :
    (sendAll keeps [] log).1.length = log.length ∧ ∀ i req node, log[i]? = some (req, node) → ∃ r, (sendAll keeps [] log).1[i]? = some r ∧
      (FirstKept keeps log req i r ∨ (r = node ∧ ∀ k < i, ∀ r', log[k]? = some (req, r') → keeps r' = false)) := by
  refine ⟨sendAll_length keeps [] log, fun i req node hi => ?_⟩
  obtain ⟨hlt, he⟩ := List.getElem?_eq_some_iff.1 hi
  have hsplit : log = log.take i ++ ((req, node) :: log.drop (i + 1)) := by
    rw [← he, List.getElem_cons_drop, List.take_append_drop]
  have hlen : (log.take i).length = i := by rw [List.length_take]; omega
  have first : ∀ r, FirstKept keeps (log.take i) req (log.take i).length r ↔ FirstKept keeps log req i r := by
    intro r
    rw [hlen]
    unfold FirstKept
    constructor
    · rintro ⟨j, hj, h1, h2, h3⟩
      rw [List.getElem?_take_of_lt hj] at h1
      exact ⟨j, hj, h1, h2, fun k hk r' hr => h3 k hk r' (by rw [List.getElem?_take_of_lt (by omega)]; exact hr)⟩
    · rintro ⟨j, hj, h1, h2, h3⟩
      refine ⟨j, hj, by rw [List.getElem?_take_of_lt hj]; exact h1, h2, fun k hk r' hr => h3 k hk r' ?_⟩
      rwa [List.getElem?_take_of_lt (by omega)] at hr
  have hget : (sendAll keeps [] log).1[i]? = some (send keeps (sendAll keeps [] (log.take i)).2 req node).1 := by
    conv_lhs => rw [hsplit]
    rw [sendAll_append, List.getElem?_append_right (by rw [sendAll_length, hlen]), sendAll_length, hlen, Nat.sub_self]
    rfl
  refine ⟨_, hget, ?_⟩
  unfold send
  cases hs : stored (sendAll keeps [] (log.take i)).2 req with
  | some r => exact .inl ((first r).1 ((stored_sendAll keeps _ _ _).1 hs))
  | none =>
    refine .inr ⟨rfl, fun k hk r' hr => ?_⟩
    induction k using Nat.strong_induction_on generalizing r' with
    | _ k ihk =>
      by_contra hne
      have := (first r').2 ⟨k, hk, hr, by simpa using hne, fun m hm r'' h'' => ihk m hm (by omega) r'' h''⟩
      rw [← stored_sendAll, hs] at this
      cases this

/-- **C86.** Every reply is one that the node has given to the same request, now or earlier; and a reply that the cache does not keep,
such as an error, is what the node replies now. -/
theorem C86_origin (log : List (Request × Reply)) (i : Nat) (req : Request) (node r : Reply) (hi : log[i]? = some (req, node))
    (hr : (sendAll keeps [] log).1[i]? = some r) : (∃ j ≤ i, log[j]? = some (req, r)) ∧ (keeps r = false → r = node) := by
  obtain ⟨r', h1, h2⟩ := (C86_answers keeps log).2 i req node hi
  rw [hr] at h1
  cases h1
  rcases h2 with ⟨j, hj, h3, h4, -⟩ | ⟨rfl, -⟩
  · exact ⟨⟨j, by omega, h3⟩, fun h => by rw [h] at h4; cases h4⟩
  · exact ⟨⟨i, by omega, hi⟩, fun _ => rfl⟩

/-- **C86.** If the node never changes its reply to a request, the cache makes no difference. -/
theorem C86_transparent (log : List (Request × Reply))
    (h : ∀ (i j : Nat) (req : Request) (r r' : Reply), log[i]? = some (req, r) → log[j]? = some (req, r') → r = r') :
    (sendAll keeps [] log).1 = log.map Prod.snd := by
  refine List.ext_getElem? fun i => ?_
  rw [List.getElem?_map]
  cases hi : log[i]? with
  | none =>
    rw [List.getElem?_eq_none_iff] at hi
    rw [Option.map_none, List.getElem?_eq_none_iff, sendAll_length]
    exact hi
  | some x =>
    obtain ⟨req, node⟩ := x
    obtain ⟨r, h1, -⟩ := (C86_answers keeps log).2 i req node hi
    obtain ⟨⟨j, -, h2⟩, -⟩ := C86_origin keeps log i req node r hi h1
    rw [h1, h j i req r node h2 hi]
    rfl

/-- **C86.** After a restart the client goes on with what the directory holds: two runs are one longer run. -/
theorem C86_restart (a b : List (Request × Reply)) :
    (sendAll keeps [] (a ++ b)).1 = (sendAll keeps [] a).1 ++ (sendAll keeps (sendAll keeps [] a).2 b).1 := by
  rw [sendAll_append]

/-- **C86.** A reply that was kept is given ever after, whatever the node replies later. -/
theorem C86_frozen (log : List (Request × Reply)) (i j : Nat) (req : Request) (r node node' : Reply) (hij : i ≤ j)
    (hi : log[i]? = some (req, node)) (hj : log[j]? = some (req, node')) (hr : (sendAll keeps [] log).1[i]? = some r)
    (hk : keeps r = true) : (sendAll keeps [] log).1[j]? = some r := by
  obtain ⟨r1, h1, h2⟩ := (C86_answers keeps log).2 i req node hi
  rw [hr] at h1
  cases h1
  have kept : ∃ m ≤ i, log[m]? = some (req, r) ∧ ∀ k < m, ∀ r', log[k]? = some (req, r') → keeps r' = false := by
    rcases h2 with ⟨m, hm, h3, -, h4⟩ | ⟨rfl, h3⟩
    · exact ⟨m, by omega, h3, h4⟩
    · exact ⟨i, le_refl _, hi, h3⟩
  obtain ⟨m, hm, h3, h4⟩ := kept
  obtain ⟨r2, h5, h6⟩ := (C86_answers keeps log).2 j req node' hj
  rw [h5]
  rcases h6 with ⟨m', hm', h7, h8, h9⟩ | ⟨rfl, h7⟩
  · rcases Nat.lt_trichotomy m m' with h | rfl | h
    · rw [h9 m h _ h3] at hk; cases hk
    · rw [h3] at h7; cases h7; rfl
    · rw [h4 m' h _ h7] at h8; cases h8
  · rcases Nat.lt_or_ge m j with h | h
    · rw [h7 m h _ h3] at hk; cases hk
    · have : m = j := by omega
      subst this
      rw [h3] at hj; cases hj; rfl

/-- The builder has a cache if it had one or some call adds it. -/
theorem cacheMw_calls (calls : List BuilderCall) (b : ClientBuilder) :
    (calls.foldl ClientBuilder.call b).cacheMw = (b.cacheMw || decide (.withCache ∈ calls)) := by
  induction calls generalizing b with
  | nil => simp
  | cons c calls ih =>
    rw [List.foldl_cons, ih]
    cases c with
    | withCache => simp [ClientBuilder.call, ClientBuilder.withCache]
    | withRateLimit rps =>
      simp only [ClientBuilder.call, ClientBuilder.withRateLimit]
      split <;> simp

/-- **C86.** However the client was built: a rate limit changes no reply; without a cache every request reaches the node and gets the node's
reply; and with one the cache is the first to see a request, so that the node is asked only if nothing is stored. -/
theorem C86_middlewares (calls : List BuilderCall) (store : Store) (req : Request) (node : Reply) :
    through keeps (calls.foldl ClientBuilder.call ClientBuilder.new).build store req node =
      if .withCache ∈ calls then ((send keeps store req node).1, (send keeps store req node).2, (stored store req).isNone)
      else (node, store, true) := by
  have hc := cacheMw_calls calls ClientBuilder.new
  generalize calls.foldl ClientBuilder.call ClientBuilder.new = b at hc
  obtain ⟨c, l⟩ := b
  dsimp only at hc
  subst hc
  by_cases h : BuilderCall.withCache ∈ calls
  · cases l <;> simp only [ClientBuilder.build, h, decide_true, Bool.or_true, if_true, List.cons_append, List.nil_append, through, send] <;>
      cases stored store req <;> rfl
  · cases l <;> simp only [ClientBuilder.build, h, decide_false, ClientBuilder.new, Bool.or_false, Bool.false_eq_true, if_false,
      List.nil_append, through]

end cache

/-- The loop that waits. -/
theorem waits {W : WireExt} {X : Ext} {order : List Nat → List Nat} {spec : ChainSpec} {cfg : Config} {bound : Nat} {continuous : Bool}
    {epoch : Nat} (passes : List Pass) (h : ∀ p ∈ passes, ∃ head, p.head = .ok head ∧ head < (epoch + 1) % 2 ^ 64) :
    buildLoop W X order spec cfg bound continuous epoch passes = ([], .running) := by
  induction passes with
  | nil => rfl
  | cons p ps ih =>
    obtain ⟨head, h1, h2⟩ := h p List.mem_cons_self
    unfold buildLoop
    rw [h1]
    dsimp only
    rw [if_pos (by simpa using h2)]
    exact ih (fun q hq => h q (List.mem_cons_of_mem _ hq))

/-- **C86.** Why the commands must not use such a client: if `build-input` asks for the head through the cache, and the first reply is kept
and names an epoch that is not beyond the requested one, it writes nothing and waits, however long it runs and whatever the node
replies later. -/
theorem C86_waits_forever (keeps : Reply → Bool) (W : WireExt) (X : Ext) (order : List Nat → List Nat) (spec : ChainSpec) (cfg : Config)
    (bound : Nat) (continuous : Bool) (D : Decoders HostState) (epoch : Nat) (heads : List Reply) (passes : List NodePass)
    (hp : passes.map (fun n => n.head (.finality .head)) = (sendAll keeps [] (heads.map (fun r => (.finality .head, r)))).1)
    (first : Reply) (hf : heads.head? = some first) (hk : keeps first = true) (previous justified finalized : Checkpoint)
    (hs : Said (fun _ => first) (.finality .head) D.finality (previous, justified, finalized))
    (he : finalized.epoch < (epoch + 1) % 2 ^ 64) :
    buildLoop W X order spec cfg bound continuous epoch (passes.map (NodePass.pass D)) = ([], .running) := by
  refine waits _ fun p hpm => ?_
  obtain ⟨n, hn, rfl⟩ := List.mem_map.1 hpm
  refine ⟨finalized.epoch, head_ok.2 ⟨previous, justified, finalized, ?_, rfl⟩, he⟩
  have hmem : n.head (.finality .head) ∈ (sendAll keeps [] (heads.map (fun r => (.finality .head, r)))).1 := by
    rw [← hp]
    exact List.mem_map_of_mem hn
  obtain ⟨i, hi⟩ := List.mem_iff_getElem?.1 hmem
  have hlog : ∀ k, (heads.map (fun r => (Request.finality .head, r)))[k]? = heads[k]?.map (fun r => (Request.finality .head, r)) :=
    fun k => List.getElem?_map
  have h0 : (heads.map (fun r => (Request.finality .head, r)))[0]? = some (.finality .head, first) := by
    rw [hlog, ← List.head?_eq_getElem?, hf]
    rfl
  have hlt : i < heads.length := by
    have := (List.getElem?_eq_some_iff.1 hi).1
    rw [sendAll_length, List.length_map] at this
    exact this
  have hiv : (heads.map (fun r => (Request.finality .head, r)))[i]? = some (.finality .head, heads[i]) := by
    rw [hlog, List.getElem?_eq_getElem hlt]
    rfl
  obtain ⟨r0, h1, h2⟩ := (C86_answers keeps (heads.map (fun r => (Request.finality .head, r)))).2 0 _ _ h0
  have hr0 : r0 = first := by
    rcases h2 with ⟨j, hj, -⟩ | ⟨h, -⟩
    · omega
    · exact h
  subst hr0
  have := C86_frozen keeps _ 0 i _ r0 _ _ (Nat.zero_le _) h0 hiv h1 hk
  rw [hi] at this
  have hh := Option.some.inj this
  obtain ⟨status, body, h3, h4⟩ := hs
  exact ⟨status, body, hh.trans h3, h4⟩

/-! ## Concrete cases -/

/-- What `http-cache` keeps of a node that sends no cache headers: replies with status 200. -/
def keeps200 : Reply → Bool
  | .response 200 _ => true
  | _ => false

/-- C86: a block that is missing at first is found later; the head stays as it was. -/
example : (sendAll keeps200 [] [(.block (.slot 5), .response 404 []), (.finality .head, .response 200 [1]),
    (.block (.slot 5), .response 200 [7]), (.finality .head, .response 200 [2]), (.block (.slot 5), .noResponse)]).1 =
    [.response 404 [], .response 200 [1], .response 200 [7], .response 200 [1], .response 200 [7]] := by decide

/-- C86: only the calls count, not their order; zero takes an earlier limit away. -/
example : ([.withRateLimit 9, .withCache, .withRateLimit 0, .withRateLimit 3].foldl ClientBuilder.call ClientBuilder.new).build =
    [.cache, .rateLimit 3] ∧ ([.withRateLimit 9, .withRateLimit 0].foldl ClientBuilder.call ClientBuilder.new).build = [] := by decide

/-- C86: the node of the example of C84, asked through a cache, makes no progress at all; asked directly it does (see there). -/
example : (∃ b, buildLoop fpWire exExt id exSpec Config.default 9 true 3 ([bnPass (.response 200 [1]), bnPass (.response 200 [1]),
    bnPass (.response 200 [1])].map (NodePass.pass cxDecoders)) = ([], b)) ∧
    [bnPass (.response 200 [1]), bnPass (.response 200 [1]), bnPass (.response 200 [1])].map (fun n => n.head (.finality .head)) =
      (sendAll keeps200 [] (bnPasses.map (fun n => (.finality .head, n.head (.finality .head))))).1 := by
  refine ⟨⟨_, C86_waits_forever keeps200 fpWire exExt id exSpec Config.default 9 true cxDecoders 3
    (bnPasses.map (fun n => n.head (.finality .head))) _ (by decide) (.response 200 [1]) rfl rfl _ _ _
    ⟨200, [1], rfl, by decide, rfl⟩ (by decide)⟩, by decide⟩

end Signal
