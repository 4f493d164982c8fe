import Verif.Model.RateLimit

/-!
# Several workers

`HttpServer::new` (actix-web 3) calls the closure of `prexel-server/src/main.rs` 31-81 once for each worker thread, and the closure calls
`get_rate_limit_middleware` (38), which makes a new `MemoryStore` (92): each worker has a store of its own. Which worker takes a request depends on the scheduling
of connections; it is part of the input. Within one worker, requests are handled one after the other as far as the store is concerned (the store is an actor).
-/
namespace Prexel

/-- A request: when, at which worker, from whom. -/
structure Arrival where
  time : Nat
  worker : Nat
  id : Str
deriving DecidableEq

/-- The requests in the order in which they arrive, each with whether it is passed on; `stores` are the stores of the workers. prexel-server/src/main.rs 31-38, 88-102. -/
def runWorkers (stores : Nat → RateStore) : List Arrival → List (Arrival × Bool)
  | [] => []
  | r :: rest =>
    let s := (stores r.worker).request r.time r.id
    (r, s.1) :: runWorkers (fun w => if w = r.worker then s.2 else stores w) rest

/-- All stores are empty at the start. -/
def serveWorkers (h : List Arrival) : List (Arrival × Bool) := runWorkers (fun _ _ => none) h

end Prexel
