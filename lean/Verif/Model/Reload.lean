import Verif.Model.Config
import Verif.Model.Http
/-!
# Settings

Models the functions `reload()` of the connectors, the network scheduler, the fiber scheduler and the logger, which read their settings from a configuration file and then replace them, and the list of
modules that `do_load_modules()` reads.  Everything is read before anything is replaced, and it is replaced with a mutex locked; so the effect is that of a single step.  Files that are loaded into SSL
contexts, and the limit on stacks, are given by an environment.
-/
namespace Verif.Reload
open Verif.Config

variable {R : Type}

abbrev Root (R : Type) := List (Bytes × Value R)

/-- `.value_or()`; `none` if an exception has been thrown -/
def valueOr {α : Type} (g : Got α) (d : α) : Option α :=
  match g with
  | .threw => none
  | .nothing => some d
  | .got a => some a

/-- `m_conf_*` of `Redis_Connector` and `Mongo_Connector` (redis_connector.hpp, mongo_connector.hpp) -/
structure Pool where
  uri : Bytes
  password : Bytes
  size : Int
  idle : Int
deriving DecidableEq, Repr

/-- `Redis_Connector::reload()`.  (redis_connector.cpp:36-59) -/
def redis (root : Root R) : Option Pool := do
  let uri ← valueOr (getStringOpt root (b! "redis.default_service_uri")) (b! "default@localhost:6379/0")
  let password ← valueOr (getStringOpt root (b! "redis.default_password")) []
  let size ← valueOr (getIntegerOpt root (b! "redis.connection_pool_size") 0 100) 0
  let idle ← valueOr (getIntegerOpt root (b! "redis.connection_idle_timeout") 0 86400) 60
  pure { uri, password, size, idle }

/-- `Mongo_Connector::reload()`.  (mongo_connector.cpp:37-63) -/
def mongo (root : Root R) : Option Pool := do
  let uri ← valueOr (getStringOpt root (b! "mongo.default_service_uri")) (b! "root@localhost:27017/admin")
  let password ← valueOr (getStringOpt root (b! "mongo.default_password")) []
  let size ← valueOr (getIntegerOpt root (b! "mongo.connection_pool_size") 0 100) 0
  let idle ← valueOr (getIntegerOpt root (b! "mongo.connection_idle_timeout") 0 86400) 60
  pure { uri, password, size, idle }

/-- `m_conf_*` of `MySQL_Connector` (mysql_connector.hpp) -/
structure Pools where
  uri : Bytes
  password : Bytes
  uri2 : Bytes
  password2 : Bytes
  uri3 : Bytes
  password3 : Bytes
  size : Int
  idle : Int
deriving DecidableEq, Repr

/-- `MySQL_Connector::reload()`.  (mysql_connector.cpp:37-81) -/
def mysql (root : Root R) : Option Pools := do
  let uri ← valueOr (getStringOpt root (b! "mysql.default_service_uri")) (b! "root@localhost:3306/admin")
  let password ← valueOr (getStringOpt root (b! "mysql.default_password")) []
  let uri2 ← valueOr (getStringOpt root (b! "mysql.secondary_service_uri")) uri
  let password2 ← valueOr (getStringOpt root (b! "mysql.secondary_password")) password
  let uri3 ← valueOr (getStringOpt root (b! "mysql.tertiary_service_uri")) uri2
  let password3 ← valueOr (getStringOpt root (b! "mysql.tertiary_password")) password2
  let size ← valueOr (getIntegerOpt root (b! "mysql.connection_pool_size") 0 100) 0
  let idle ← valueOr (getIntegerOpt root (b! "mysql.connection_idle_timeout") 0 86400) 60
  pure { uri, password, uri2, password2, uri3, password3, size, idle }

/-- `m_conf_*` of `Fiber_Scheduler` (fiber_scheduler.hpp) -/
structure Fibers where
  stack : Int
  warn : Int
  fail : Int
deriving DecidableEq, Repr

/-- `Fiber_Scheduler::reload()`; `limit` is what `getrlimit()` gives, which is converted to 32 bits.  (fiber_scheduler.cpp:247-275) -/
def fibers (limit : Option Nat) (root : Root R) : Option Fibers := do
  let stack ← valueOr (getIntegerOpt root (b! "fiber.stack_vm_size") 0 16777216) 0
  let stack : Int := if stack = 0 then (match limit with | some l => (l % 4294967296 : Nat) | none => stack) else stack
  let stack := if stack = 0 then 16777216 else stack
  let warn ← valueOr (getIntegerOpt root (b! "fiber.warn_timeout") 0 86400) 15
  let fail ← valueOr (getIntegerOpt root (b! "fiber.fail_timeout") 0 86400) 300
  pure { stack, warn, fail }

/-- What OpenSSL makes of files. -/
structure Files where
  certificate : Bytes → Bool
  key : Bytes → Bool
  /-- The certificate and the key belong together. -/
  pair : Bytes → Bytes → Bool
  authorities : Bytes → Bool

/-- `m_*` of `Network_Scheduler` (network_scheduler.hpp) -/
structure Network where
  events : Int
  throttle : Int
  /-- the certificate and the key of `m_server_ssl_ctx` -/
  server : Option (Bytes × Bytes)
  /-- `m_client_ssl_ctx`: where authorities are, if certificates are verified -/
  client : Option Bytes
deriving DecidableEq, Repr

/-- The server context, in `Network_Scheduler::reload()`; `none` if an exception is thrown.  (network_scheduler.cpp:112-177) -/
def server (f : Files) (cert key : Bytes) : Option (Option (Bytes × Bytes)) :=
  if cert ≠ [] ∧ key = [] then none
  else if cert = [] ∧ key ≠ [] then none
  else if cert ≠ [] then (if f.certificate cert && f.key key && f.pair cert key then some (some (cert, key)) else none)
  else some none

/-- The client context, in `Network_Scheduler::reload()`.  (network_scheduler.cpp:179-207) -/
def client (f : Files) (ca : Bytes) : Option (Option Bytes) :=
  if ca ≠ [] then (if f.authorities ca then some (some ca) else none)
  else some none

/-- `Network_Scheduler::reload()`; allocation of SSL contexts does not fail.  (network_scheduler.cpp:95-214) -/
def network (f : Files) (root : Root R) : Option Network := do
  let events ← valueOr (getIntegerOpt root (b! "network.poll.event_buffer_size") 10 1048576) 1024
  let throttle ← valueOr (getIntegerOpt root (b! "network.poll.throttle_size") 0 2147483647) 1048576
  let cert ← valueOr (getStringOpt root (b! "network.ssl.default_certificate")) []
  let key ← valueOr (getStringOpt root (b! "network.ssl.default_private_key")) []
  let server ← server f cert key
  let ca ← valueOr (getStringOpt root (b! "network.ssl.trusted_ca_path")) []
  let client ← client f ca
  pure { events, throttle, server, client }

/-- `server_ssl_ctx()`; `none` if it throws.  (network_scheduler.cpp:63-77) -/
def serverContext (n : Network) : Option (Bytes × Bytes) := n.server

/-- Elements `k`, `k + 1` and so on of an array of strings, which are read one by one -/
def strings (root : Root R) (path : Bytes) (k : Nat) : Nat → Option (List Bytes)
  | 0 => some []
  | n + 1 => match getString root (path ++ [chr '['] ++ Http.decimal k ++ [chr ']']) with
    | .got s => (strings root path (k + 1) n).map (s :: ·)
    | _ => none

/-- `X_Level_Config`, without the tag (logger.cpp:34-41) -/
structure Level where
  color : Bytes
  expendable : Bool
  files : List Bytes
deriving DecidableEq, Repr

/-- One level, in `Logger::reload()`.  (logger.cpp:236-254) -/
def level (root : Root R) (verbose : Bool) (name : Bytes) : Option Level := do
  let color ← valueOr (getStringOpt root (b! "logger." ++ name ++ b! ".color")) []
  let expendable ← valueOr (getBooleanOpt root (b! "logger." ++ name ++ b! ".expendable")) false
  let n ← valueOr (getArraySizeOpt root (b! "logger." ++ name ++ b! ".files")) 0
  let files ← strings root (b! "logger." ++ name ++ b! ".files") 0 n
  let stdout := files.any fun f => f == b! "/dev/stdout" || f == b! "/dev/stderr"
  pure { color, expendable, files := if verbose && !stdout then files ++ [b! "/dev/stdout"] else files }

def levelNames : List Bytes := [b! "fatal", b! "error", b! "warn", b! "info", b! "debug", b! "trace"]

def levels (root : Root R) (verbose : Bool) : List Bytes → Option (List Level)
  | [] => some []
  | n :: ns => match level root verbose n with
    | none => none
    | some l => (levels root verbose ns).map (l :: ·)

/-- `m_conf_levels`, and the bits of `m_conf_level_bits` (logger.hpp:16-17) -/
structure Logger where
  levels : List Level := []
  bits : Nat → Bool := fun _ => true

/-- `Logger::enabled()`.  (logger.hpp:51-55) -/
def Logger.enabled (l : Logger) (k : Nat) : Bool := decide (k ≤ 15) && l.bits k

/-- `Logger::reload()`; the second component is whether it has returned.  Before anything is read, all bits are set.  (logger.cpp:226-268) -/
def logger (l : Logger) (root : Root R) (verbose : Bool) : Logger × Bool :=
  match levels root verbose levelNames with
  | none => ({ l with bits := fun _ => true }, false)
  | some ls => ({ levels := ls, bits := fun k => match ls[k]? with | some x => decide (x.files.length ≠ 0) | none => false }, true)

/-- `do_load_modules()`: the names in `main.conf`; `none` if an exception is thrown.  (main.cpp:479-484) -/
def modules (root : Root R) : Option (List Bytes) :=
  match getArraySize root (b! "modules") with
  | .got n => strings root (b! "modules") 0 n
  | _ => none

/-- A component with settings: if `reload()` throws, they are kept.  The second component is whether it has returned. -/
def reload {C : Type} (read : Root R → Option C) (old : C) (root : Root R) : C × Bool :=
  match read root with
  | none => (old, false)
  | some new => (new, true)

/-- The settings after configuration files have been loaded, one after another -/
def settings {C : Type} (read : Root R → Option C) (c : C) : List (Root R) → C
  | [] => c
  | r :: rs => settings read (reload read c r).1 rs

end Verif.Reload
