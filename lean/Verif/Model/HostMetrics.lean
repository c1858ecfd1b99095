import Verif.Model.Front
import Verif.Model.Instruments

/-!
The host and process instrumentation: `lightstep/instrumentation/host/host.go`, `lightstep/instrumentation/cputime/{cputime,cputime_unix}.go`, and
the part of `internal/asyncstate/callback.go` that runs a callback.

The operating system's answers (gopsutil, `getrusage`, the clock) are inputs. Floating-point addition and division are parameters.
`cputime_other.go` is not modelled: it assigns to the undeclared variables `gcSeconds` and `memStats` and so does not compile.
-/

namespace Verif.HostMetrics
open Verif.Number Verif.Attr Verif.Front Verif.Views Verif.Instruments

/-- `metric.MeterProvider` selection by options (host.go:51-61, 100-118; cputime.go:44-54, 69-90): a nil provider changes nothing. -/
def pickProvider {P : Type} (global : P) (opts : List (Option P)) : P :=
  opts.foldl (fun c o => match o with | some p => p | none => c) global

/-! ### Host -/

/-- `cpu.TimesStat` (external). -/
structure CpuTimes where
  user : Bits
  system : Bits
  idle : Bits
  nice : Bits
  iowait : Bits
  irq : Bits
  softirq : Bits
  steal : Bits
  guest : Bits
  guestNice : Bits
deriving DecidableEq

/-- `mem.VirtualMemoryStat` (external): unsigned counts. -/
structure Memory where
  used : Bits
  available : Bits
  total : Bits
deriving DecidableEq

/-- `net.IOCountersStat` (external): unsigned counts. -/
structure NetIO where
  sent : Bits
  recv : Bits
deriving DecidableEq

/-- An instrument to create: constructor, name, unit. -/
structure Want where
  ctor : Ctor
  name : Str
  unit : Str
deriving DecidableEq, Repr

def hostCPUTime : Want := ⟨.float64ObservableCounter, lit "system.cpu.time", lit "s"⟩
def hostMemoryUsage : Want := ⟨.int64ObservableUpDownCounter, lit "system.memory.usage", lit "By"⟩
def hostMemoryUtilization : Want := ⟨.float64ObservableGauge, lit "system.memory.utilization", []⟩
def networkIOUsage : Want := ⟨.int64ObservableCounter, lit "system.network.io", lit "By"⟩

/-- One call of `ObserveInt64` or `ObserveFloat64`: instrument, attributes, the 64 bits of the value. -/
structure Obs where
  inst : Want
  attrs : List (Str × Str)
  value : Bits
deriving DecidableEq, Repr

/-- Errors a callback returns. -/
inductive CbError (E : Type) where
  | source (e : E)
  | count
deriving DecidableEq, Repr

/-- `float64(x)` of an unsigned integer. -/
def ofUnsigned (x : Bits) : Bits := natToFloat x.toNat

variable {E : Type} (fadd fdiv : Bits → Bits → Bits)

/-- The sum of the other states (host.go:213-219). -/
def other (t : CpuTimes) : Bits :=
  fadd (fadd (fadd (fadd (fadd (fadd t.nice t.iowait) t.irq) t.softirq) t.steal) t.guest) t.guestNice

/-- The observations (host.go:207-234). `int64(x)` of an unsigned integer keeps the bits. -/
def hostObs (t : CpuTimes) (m : Memory) (n : NetIO) : List Obs :=
  [⟨hostCPUTime, [(lit "state", lit "user")], t.user⟩,
   ⟨hostCPUTime, [(lit "state", lit "system")], t.system⟩,
   ⟨hostCPUTime, [(lit "state", lit "other")], other fadd t⟩,
   ⟨hostCPUTime, [(lit "state", lit "idle")], t.idle⟩,
   ⟨hostMemoryUsage, [(lit "state", lit "used")], m.used⟩,
   ⟨hostMemoryUsage, [(lit "state", lit "available")], m.available⟩,
   ⟨hostMemoryUtilization, [(lit "state", lit "used")], fdiv (ofUnsigned m.used) (ofUnsigned m.total)⟩,
   ⟨hostMemoryUtilization, [(lit "state", lit "available")], fdiv (ofUnsigned m.available) (ofUnsigned m.total)⟩,
   ⟨networkIOUsage, [(lit "direction", lit "transmit")], n.sent⟩,
   ⟨networkIOUsage, [(lit "direction", lit "receive")], n.recv⟩]

/-- The callback (host.go:182-236): the observations made and the error returned. The check of the network summary returns the (nil) error
of the call before (host.go:202-204). -/
def hostCallback (cpu : Except E (List CpuTimes)) (mem : Except E Memory) (net : Except E (List NetIO)) : List Obs × Option (CbError E) :=
  match cpu with
  | .error e => ([], some (.source e))
  | .ok [t] =>
    match mem with
    | .error e => ([], some (.source e))
    | .ok m =>
      match net with
      | .error e => ([], some (.source e))
      | .ok [n] => (hostObs fadd fdiv t m n, none)
      | .ok _ => ([], none)
  | .ok _ => ([], some .count)

/-- What a registration does with the meter. -/
inductive Ev where
  | create (w : Want)
  | callback (ws : List Want)
deriving DecidableEq, Repr

/-- `register` (host.go:126-248, cputime.go:92-134): the instruments are created in order, the first error ends it; then the callback is registered
for all of them. `create` and `regCb` are the meter's answers. -/
def registerLoop (create : Want → Option E) (regCb : Option E) (all : List Want) : List Want → List Ev × Option E
  | [] => ([.callback all], regCb)
  | w :: ws =>
    match create w with
    | some e => ([.create w], some e)
    | none => let r := registerLoop create regCb all ws; (.create w :: r.1, r.2)

def hostWants : List Want := [hostCPUTime, hostMemoryUsage, hostMemoryUtilization, networkIOUsage]
/-- `host.register` (host.go:126-248). -/
def hostRegister (create : Want → Option E) (regCb : Option E) : List Ev × Option E := registerLoop create regCb hostWants hostWants

/-! ### Process -/

def processCPUTime : Want := ⟨.float64ObservableCounter, lit "process.cpu.time", lit "s"⟩
def processUptime : Want := ⟨.float64ObservableUpDownCounter, lit "process.uptime", lit "s"⟩
def processWants : List Want := [processCPUTime, processUptime]
/-- `cputime.register` (cputime.go:92-134). -/
def processRegister (create : Want → Option E) (regCb : Option E) : List Ev × Option E := registerLoop create regCb processWants processWants

/-- `syscall.Timeval` (external). -/
structure Timeval where
  sec : Bits
  usec : Bits
deriving DecidableEq

/-- `syscall.Rusage` (external). -/
structure Rusage where
  utime : Timeval
  stime : Timeval
deriving DecidableEq

/-- `time.Duration(tv.Sec)*time.Second + time.Duration(tv.Usec)*time.Microsecond` (cputime_unix.go:61-62). -/
def duration (t : Timeval) : Bits := t.sec * 1000000000 + t.usec * 1000

/-- `float64(x)` of a signed integer. -/
def ofSigned (x : Bits) : Bits := if x.toInt < 0 then natToFloat x.toInt.natAbs ||| 0x8000000000000000 else natToFloat x.toNat

/-- `Duration.Seconds` (external): whole seconds plus the rest divided by `1e9`. -/
def seconds (d : Bits) : Bits :=
  fadd (ofSigned (d.sdiv 1000000000)) (fdiv (ofSigned (d.srem 1000000000)) (ofSigned 1000000000))

/-- `math.NaN()`. -/
def nan : Bits := 0x7ff8000000000001

/-- `getProcessTimes` (cputime_unix.go:50-67): user, system, uptime, and whether an error is reported. `up` is `time.Since(processStartTime)`. -/
def getProcessTimes (up : Bits) (ru : Except E Rusage) : Bits × Bits × Bits × Option E :=
  match ru with
  | .error e => (nan, nan, seconds fadd fdiv up, some e)
  | .ok r => (seconds fadd fdiv (duration r.utime), seconds fadd fdiv (duration r.stime), seconds fadd fdiv up, none)

/-- The callback (cputime.go:119-129). -/
def processCallback (up : Bits) (ru : Except E Rusage) : List Obs :=
  let t := getProcessTimes fadd fdiv up ru
  [⟨processUptime, [], t.2.2.1⟩,
   ⟨processCPUTime, [(lit "state", lit "user")], t.1⟩,
   ⟨processCPUTime, [(lit "state", lit "system")], t.2.1⟩]

/-- The observations that pass the range test (async.go:175-177). -/
def accepted (l : List Obs) : List Obs := l.filter (fun o => rangeTest o.inst.ctor.kinds.1 o.value o.inst.ctor.kinds.2)

/-! ### Running a callback -/

/-- `Callback.Run` (callback.go:75-82), as far as its outcome goes: the observations that reach the state and the errors reported. The result of the
function is not looked at. -/
def run (f : List Obs × Option (CbError E)) : List Obs × List (CbError E) := (accepted f.1, [])

end Verif.HostMetrics
