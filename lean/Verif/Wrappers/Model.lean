/-
Model of the client and server wrappers that blueprint's modifier plugins
generate: retries, load balancing, timeouts and fault injection.  The generated
Go text is fixed by the templates cited at each definition, so a template is
modelled as the method body it expands to, for one service method.
-/
namespace Verif.Wrappers

/-- What a service method returns: the non-error results (as one value) and the
error.  plugins/golang/gogen/template.go RetVars: `ret0, …, err`. -/
structure Ret (V E : Type) where
  val : V
  err : Option E
deriving DecidableEq, Repr

/-- Observable effects of one call of a wrapper: calls of the wrapped method
with the `attempt_num` placed in the context, and sleeps (nanoseconds). -/
inductive Ev (V E : Type) where
  | call (attemptNum : Nat) (r : Ret V E)
  | sleep (ns : Int)
deriving DecidableEq, Repr

/-- Two's complement wrap-around of Go's int64 arithmetic. -/
def wrap64 (n : Int) : Int := (n + 2 ^ 63) % 2 ^ 64 - 2 ^ 63

/-! ### Retries -/

/-- plugins/retries/codegen.go:163-170 (clientTemplate) and :203-211
(clientFixedDelayTemplate): `for i := i; i < MaxTries; i++`, with `left`
iterations left and `cur` the current values of the named results.  `out k` is
what the k-th call (from 0) of the wrapped method returns.  `delay` is the sleep
of the fixed-delay template. -/
def retryLoop {V E : Type} (delay : Option Int) (out : Nat → Ret V E) :
    (left i : Nat) → (cur : Ret V E) → List (Ev V E) × Ret V E
  | 0, _, cur => ([], cur)
  | n + 1, i, _ =>
    let r := out i
    if r.err.isNone then ([.call (i + 1) r], r)
    else
      let rest := retryLoop delay out n (i + 1) r
      (.call (i + 1) r :: ((delay.map Ev.sleep).toList ++ rest.1), rest.2)

/-- The generated method of the plain (`delay = none`) and fixed-delay retrying
clients, plugins/retries/codegen.go:162-172 and :202-213.  The named results
start as Go's zero values: `zero` and a nil error. -/
def retryCall {V E : Type} (delay : Option Int) (out : Nat → Ret V E) (zero : V)
    (maxTries : Int) : List (Ev V E) × Ret V E :=
  retryLoop delay out maxTries.toNat 0 ⟨zero, none⟩

/-- Everything the exponential backoff client does not control: the results of
the calls, whether the context is done before the k-th sleep ends (and with which
error), and the k-th draw of the random generator. -/
structure Env (V E : Type) where
  out : Nat → Ret V E
  cancelled : Nat → Option E
  seed : Nat → Nat

/-- How a call of a generated method ends. -/
inductive Outcome (V E : Type) where
  | returned (r : Ret V E)
  | panicked
deriving DecidableEq, Repr

/-- math/rand `Int63n n` for an arbitrary state of the generator: any value of
`[0, n)`; it panics when `n ≤ 0`. -/
def int63n (n : Int) (seed : Nat) : Option Int :=
  if n ≤ 0 then none else some ((seed : Int) % n)

/-- plugins/retries/codegen.go:251-255 (addJitter) and :275-279. -/
def sleepDuration (jitter : Bool) (d : Int) (seed : Nat) : Option Int :=
  if jitter then (int63n (d.tdiv 2) seed).map fun r => d.tdiv 2 + r else some d

/-- plugins/retries/codegen.go:264-297 (clientExponentialBackoffTemplate): the
endless loop, cut off after `fuel` iterations (`none`: still running).  `k` is
`i - 1`.  Simplification: the attempt counter is unbounded. -/
def backoff {V E : Type} (env : Env V E) (jitter : Bool) (limit : Int) :
    (fuel k : Nat) → (delay : Int) → Option (List (Ev V E) × Outcome V E)
  | 0, _, _ => none
  | fuel + 1, k, d =>
    let r := env.out k
    if r.err.isNone then some ([.call (k + 1) r], .returned r)
    else if d ≥ limit then some ([.call (k + 1) r], .returned r)
    else match sleepDuration jitter d (env.seed k) with
      | none => some ([.call (k + 1) r], .panicked)
      | some s => match env.cancelled k with
        | some e => some ([.call (k + 1) r, .sleep s], .returned ⟨r.val, some e⟩)
        | none =>
          let d2 := wrap64 (d * 2)
          let d' := if d2 > limit then limit else d2
          (backoff env jitter limit fuel (k + 1) d').map fun res =>
            (.call (k + 1) r :: .sleep s :: res.1, res.2)

/-- plugins/retries/codegen.go:379-395 (clientRateLimiterTemplate), the loop
`for i := i; i < MaxTries; i++`.  `waitErr k` is the error of the k-th wait for a
token (`none`: a token was acquired).  `c` counts the calls made so far. -/
def rateLoop {V E : Type} (out : Nat → Ret V E) (waitErr : Nat → Option E) :
    (left i c : Nat) → (cur : Ret V E) → List (Ev V E) × Ret V E
  | 0, _, _, cur => ([], cur)
  | n + 1, i, c, cur =>
    match waitErr i with
    | some e => rateLoop out waitErr n (i + 1) c ⟨cur.val, some e⟩
    | none =>
      let r := out c
      if r.err.isNone then ([.call i r], r)
      else
        let rest := rateLoop out waitErr n (i + 1) (c + 1) r
        (.call i r :: rest.1, rest.2)

/-- plugins/retries/codegen.go:370-395 (clientRateLimiterTemplate). -/
def rateCall {V E : Type} (out : Nat → Ret V E) (waitErr : Nat → Option E)
    (maxTries : Int) : List (Ev V E) × Ret V E :=
  let r := out 0
  if r.err.isNone then ([.call 1 r], r)
  else
    let rest := rateLoop out waitErr (maxTries - 1).toNat 1 1 r
    (.call 1 r :: rest.1, rest.2)

/-- The rate limiter's fields, plugins/retries/codegen.go:307-314.  Times are in
nanoseconds and token amounts in 10⁻⁹ tokens, so that `elapsed · refillRate` is
exact; the code's float64 rounding is not modelled. -/
structure Limiter where
  tokens : Int
  last : Int
deriving DecidableEq, Repr

/-- One token in the unit of `Limiter.tokens`. -/
def token : Int := 1000000000

/-- plugins/retries/codegen.go:316-327 (New_…): a full bucket. -/
def Limiter.new (rate now : Int) : Limiter := ⟨rate * token, now⟩

/-- plugins/retries/codegen.go:347-365 (acquireToken). -/
def Limiter.acquire (rate now : Int) (l : Limiter) : Limiter × Bool :=
  let t := l.tokens + (now - l.last) * rate
  let t := if t > rate * token then rate * token else t
  if t ≥ token then (⟨t - token, now⟩, true) else (⟨t, now⟩, false)

/-- A history of `acquireToken` calls at the given times: the final limiter and
the number of tokens handed out. -/
def Limiter.run (rate : Int) : Limiter → List Int → Limiter × Nat
  | l, [] => (l, 0)
  | l, now :: ts =>
    let (l', b) := l.acquire rate now
    let (l'', n) := Limiter.run rate l' ts
    (l'', n + (if b then 1 else 0))

/-- Parameters of the token-bucket client, plugins/retries/codegen.go:399-441.
Amounts are exact fixed-point numbers in units of `1/one` tokens; float64
rounding is not modelled. -/
structure Bucket where
  cap : Int
  cost : Int
  replenish : Int
  one : Int

/-- What one call of the generated method does: how many times the wrapped
method was called, and whether the last of these calls succeeded. -/
structure TbCall where
  calls : Nat
  ok : Bool
deriving DecidableEq, Repr

/-- plugins/retries/codegen.go:420-439 (clientTokenBucketTemplate): `tb` is
`client.TokenBucket`; `ok1` and `ok2` say whether the first and second attempt
succeed. -/
def Bucket.call (b : Bucket) (tb : Int) (ok1 ok2 : Bool) : Int × TbCall :=
  if ok1 then (tb, ⟨1, true⟩)
  else if tb - b.cost < b.one then (tb, ⟨1, false⟩)
  else
    let tb := tb - b.cost
    if ok2 then (min (tb + b.replenish) b.cap, ⟨2, true⟩) else (tb, ⟨2, false⟩)

/-- A run of calls, one after the other, on a fresh client (`TokenBucket` starts
at the capacity, plugins/retries/codegen.go:409-414): final level and what each
call did. -/
def Bucket.run (b : Bucket) : Int → List (Bool × Bool) → Int × List TbCall
  | tb, [] => (tb, [])
  | tb, (o1, o2) :: os =>
    let (tb', c) := b.call tb o1 o2
    let (tb'', cs) := b.run tb' os
    (tb'', c :: cs)

/-- A goroutine inside the generated method, between its read of `TokenBucket`
and its write: plugins/retries/codegen.go:424 and :429. -/
inductive TbPc where
  | start
  | read (tb : Int)
  | retried
  | gaveUp
deriving DecidableEq, Repr

/-- Several goroutines sharing one token-bucket client. -/
structure TbState where
  level : Int
  pc : Nat → TbPc
  retries : Nat

/-- Actions of goroutine `t`: its first attempt fails and it reads the bucket
(:424), or it decides and writes the bucket (:425-429).  Successful retries are
left out. -/
inductive TbAct where
  | readBucket (t : Nat)
  | decide (t : Nat)

/-- One step of the goroutines (no lock: the template takes none). -/
def Bucket.step (b : Bucket) (s : TbState) : TbAct → TbState
  | .readBucket t =>
    match s.pc t with
    | .start => { s with pc := fun u => if u = t then .read s.level else s.pc u }
    | _ => s
  | .decide t =>
    match s.pc t with
    | .read tb =>
      if tb - b.cost < b.one then { s with pc := fun u => if u = t then .gaveUp else s.pc u }
      else { level := tb - b.cost
             pc := fun u => if u = t then .retried else s.pc u
             retries := s.retries + 1 }
    | _ => s

/-! ### Load balancer -/

/-- Where a goroutine is inside `pickClient`. -/
inductive LbPc where
  | outside
  | locked
  | picked (client : Nat)
  | advanced (client : Nat)
  | panicked
deriving DecidableEq, Repr

/-- The balancer (plugins/loadbalancer/codegen.go:49-54), who holds its mutex,
where each goroutine is, and (a ghost) the clients picked so far, in order. -/
structure Lb where
  holder : Option Nat
  idx : Nat
  pc : Nat → LbPc
  picks : List Nat

/-- plugins/loadbalancer/codegen.go:56-61: `idx` starts at zero. -/
def Lb.init : Lb := ⟨none, 0, fun _ => .outside, []⟩

/-- The steps of `pickClient` by goroutine `t`. -/
inductive LbAct where
  | lock (t : Nat)
  | pick (t : Nat)
  | advance (t : Nat)
  | unlock (t : Nat)

/-- plugins/loadbalancer/codegen.go:64-70 (pickClient) with `n` clients.
`Clients[idx]` panics when out of range (the deferred Unlock still runs). -/
def Lb.step (n : Nat) (s : Lb) : LbAct → Lb
  | .lock t =>
    match s.pc t, s.holder with
    | .outside, none => { s with holder := some t, pc := fun u => if u = t then .locked else s.pc u }
    | _, _ => s
  | .pick t =>
    match s.pc t with
    | .locked =>
      if s.idx < n then
        { s with pc := (fun u => if u = t then .picked s.idx else s.pc u), picks := s.picks ++ [s.idx] }
      else { s with holder := none, pc := fun u => if u = t then .panicked else s.pc u }
    | _ => s
  | .advance t =>
    match s.pc t with
    | .picked c => { s with idx := (s.idx + 1) % n, pc := fun u => if u = t then .advanced c else s.pc u }
    | _ => s
  | .unlock t =>
    match s.pc t with
    | .advanced _ => { s with holder := none, pc := fun u => if u = t then .outside else s.pc u }
    | _ => s

/-- Any schedule of any number of goroutines. -/
def Lb.exec (n : Nat) (s : Lb) (as : List LbAct) : Lb := as.foldl (Lb.step n) s

/-! ### Timeouts -/

/-- Errors the timeout client can return. -/
inductive TErr (E : Type) where
  | timedOut
  | ofCall (e : E)
deriving DecidableEq, Repr

/-- The helper goroutine, plugins/timeouts/codegen.go:69-72. -/
inductive HelperPc (V E : Type) where
  | calling
  | assignVal (r : Ret V E)
  | assignErr (r : Ret V E)
  | sending
  | finished
deriving DecidableEq, Repr

/-- The calling goroutine, plugins/timeouts/codegen.go:74-81.  Reading the named
results on return is not atomic: `readVal` is after the first was read. -/
inductive CallerPc (V E : Type) where
  | selecting
  | timeout
  | returning (viaTimeout : Bool)
  | readVal (viaTimeout : Bool) (v : V)
  | returned (viaTimeout : Bool) (v : V) (e : Option (TErr E))
deriving DecidableEq, Repr

/-- One call of the timeout client.  `val` and `err` are the named results that
both goroutines share; `ctxDone` says that the deadline has passed (or the
caller's context was cancelled); `result` is a ghost recording what the wrapped
call returned. -/
structure Tmo (V E : Type) where
  val : V
  err : Option (TErr E)
  ctxDone : Bool
  helper : HelperPc V E
  caller : CallerPc V E
  result : Option (Ret V E)
deriving DecidableEq, Repr

/-- plugins/timeouts/codegen.go:65-68: just before the select. -/
def Tmo.init {V E : Type} (zero : V) : Tmo V E :=
  ⟨zero, none, false, .calling, .selecting, none⟩

/-- Steps: the deadline passes, the wrapped call returns, the helper or the
caller takes its next step, the caller's select chooses `ctx.Done()`, or the two
goroutines meet on the unbuffered channel. -/
inductive TAct (V E : Type) where
  | deadline
  | callReturns (r : Ret V E)
  | helper
  | caller
  | chooseDone
  | rendezvous

/-- plugins/timeouts/codegen.go:65-83 (clientTemplate).  Simplification: memory
is sequentially consistent and the non-error results are assigned in one step;
Go's memory model promises less for racing accesses. -/
def Tmo.step {V E : Type} (s : Tmo V E) : TAct V E → Tmo V E
  | .deadline => { s with ctxDone := true }
  | .callReturns r =>
    match s.helper with
    | .calling => { s with helper := .assignVal r, result := some r }
    | _ => s
  | .helper =>
    match s.helper with
    | .assignVal r => { s with val := r.val, helper := .assignErr r }
    | .assignErr r => { s with err := r.err.map .ofCall, helper := .sending }
    | _ => s
  | .caller =>
    match s.caller with
    | .timeout => { s with err := some .timedOut, caller := .returning true }
    | .returning b => { s with caller := .readVal b s.val }
    | .readVal b v => { s with caller := .returned b v s.err }
    | _ => s
  | .chooseDone =>
    match s.caller with
    | .selecting => if s.ctxDone then { s with caller := .timeout } else s
    | _ => s
  | .rendezvous =>
    match s.caller, s.helper with
    | .selecting, .sending => { s with helper := .finished, caller := .returning false }
    | _, _ => s

/-- Any schedule of deadline, wrapped call and the two goroutines. -/
def Tmo.exec {V E : Type} (s : Tmo V E) (as : List (TAct V E)) : Tmo V E :=
  as.foldl Tmo.step s

/-! ### Fault injection -/

/-- plugins/faultinjector/probabilistic/codegen.go:74-81 (serverTemplate): `draw`
is the outcome of `rand.Int31n(100)`, `inner` what the wrapped call would return.
The second component says whether the wrapped service was called. -/
def injectFault {V E : Type} (probability : Int) (draw : Nat) (zero : V) (injected : E)
    (inner : Ret V E) : Ret V E × Bool :=
  if (draw : Int) < probability then (⟨zero, some injected⟩, false) else (inner, true)

/-- plugins/faultinjector/delay/codegen.go:74-78 (serverTemplate): the sleep in
nanoseconds for a maximum of `maxDelay` milliseconds; `none` is the panic of
`rand.Int63n`. -/
def injectedDelay (maxDelay : Int) (seed : Nat) : Option Int :=
  (int63n (wrap64 (maxDelay + 1)) seed).map fun v => wrap64 (v * 1000000)

end Verif.Wrappers
