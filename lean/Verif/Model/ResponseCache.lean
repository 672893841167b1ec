import Verif.Model.Client

/-!
# Model of the client's response cache (host/src/beacon_client.rs:143-200)

`BeaconClientBuilder::with_cache` puts a cache on disk between the client and the node, in the mode `ForceCache` of the external
`http-cache`: a stored reply is used whatever its age. The rate limit comes after it and only delays requests.
-/

namespace Signal.Client

/-- The content of the cache directory, the latest entry first. The key is the URL (external), that is, the request. -/
abbrev Store := List (Request × Reply)

/-- The stored reply for a request. -/
def stored (store : Store) (req : Request) : Option Reply := (store.find? (fun e => decide (e.1 = req))).map Prod.snd

/-- One request through the middleware of `with_cache` (host/src/beacon_client.rs:161-173): the reply the client gets, and the directory
after that. `node` is what the node replies if it is asked; `keeps` tells whether `http-cache` stores a reply (external). -/
def send (keeps : Reply → Bool) (store : Store) (req : Request) (node : Reply) : Reply × Store :=
  match stored store req with
  | some r => (r, store)
  | none => (node, if keeps node then (req, node) :: store else store)

/-- A sequence of requests, each with what the node would reply at that time: the replies the client gets, and the directory. -/
def sendAll (keeps : Reply → Bool) : Store → List (Request × Reply) → List Reply × Store
  | store, [] => ([], store)
  | store, (req, node) :: rest =>
    let (r, store') := send keeps store req node
    let (rs, store'') := sendAll keeps store' rest
    (r :: rs, store'')

/-- A middleware of the client. -/
inductive Middleware where
  | cache
  | rateLimit (requestsPerSecond : Nat)
  deriving Repr, DecidableEq

/-- `BeaconClientBuilder` (host/src/beacon_client.rs:143-148) without the endpoint. The directory of the cache is always the same one. -/
structure ClientBuilder where
  cacheMw : Bool
  rateLimitMw : Option Nat

/-- `new` (host/src/beacon_client.rs:151-159). -/
def ClientBuilder.new : ClientBuilder := ⟨false, none⟩

/-- `with_cache` (host/src/beacon_client.rs:161-173). -/
def ClientBuilder.withCache (b : ClientBuilder) : ClientBuilder := { b with cacheMw := true }

/-- `with_rate_limit` (host/src/beacon_client.rs:175-184): zero takes an earlier limit away. -/
def ClientBuilder.withRateLimit (b : ClientBuilder) (requestsPerSecond : Nat) : ClientBuilder :=
  if requestsPerSecond = 0 then { b with rateLimitMw := none } else { b with rateLimitMw := some requestsPerSecond }

/-- `build` (host/src/beacon_client.rs:186-198): the middlewares in the order in which they are added. -/
def ClientBuilder.build (b : ClientBuilder) : List Middleware :=
  (if b.cacheMw then [.cache] else []) ++ (match b.rateLimitMw with | some rps => [.rateLimit rps] | none => [])

/-- The calls of the builder that add a middleware. -/
inductive BuilderCall where
  | withCache
  | withRateLimit (requestsPerSecond : Nat)
  deriving DecidableEq

/-- A builder after one more call (host/src/beacon_client.rs:161-184). -/
def ClientBuilder.call (b : ClientBuilder) : BuilderCall → ClientBuilder
  | .withCache => b.withCache
  | .withRateLimit rps => b.withRateLimit rps

/-- A request through a list of middlewares (external `reqwest_middleware`: in the order in which they were added). The rate limit
passes the request on (host/src/beacon_client.rs:127-140). The last part of the result is whether the node was asked. -/
def through (keeps : Reply → Bool) : List Middleware → Store → Request → Reply → Reply × Store × Bool
  | [], store, _, node => (node, store, true)
  | .rateLimit _ :: ms, store, req, node => through keeps ms store req node
  | .cache :: ms, store, req, node =>
    match stored store req with
    | some r => (r, store, false)
    | none =>
      let (r, store', asked) := through keeps ms store req node
      (r, if keeps r then (req, r) :: store' else store', asked)

end Signal.Client
