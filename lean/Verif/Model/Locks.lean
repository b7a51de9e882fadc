/-!
# The locks of the library

Which mutexes each function locks, in which order, and what is still locked when another one is locked.  A function is reduced to the
sequence of its lock operations; branches that differ in lock operations are parameters (how many messages are logged, whether a fiber is
launched).  Any number of threads run such sequences, interleaved in any way.

Simplifications: what is done between lock operations takes no part; a wait on a condition variable or in `epoll_wait()` is left out, that
is, a sequence begins when there is something to do; allocation failures are left out; mutexes of user code are not modelled.
-/
namespace Verif.Locks

/-- A mutex of the library.  A number tells the objects of one class apart. -/
inductive Lock where
  /-- `Network_Scheduler::m_conf_mutex` -/
  | netConf
  /-- `Network_Scheduler::m_epoll_mutex` -/
  | epoll
  /-- `Network_Scheduler::m_event_mutex` -/
  | event
  /-- `Abstract_Socket::m_sched_mutex` -/
  | sock (s : Nat)
  /-- `WebSocket_Deflator::m_def_mtx` of the session -/
  | deflate (s : Nat)
  /-- `WebSocket_Deflator::m_inf_mtx` of the session -/
  | inflate (s : Nat)
  /-- `Session_Table::mutex` or `Event_Queue::mutex` of an easy server, client or timer -/
  | table (t : Nat)
  /-- `Fiber_Scheduler::m_conf_mutex` -/
  | fiberConf
  /-- `Fiber_Scheduler::m_pq_mutex` -/
  | fiberQueue
  /-- `Abstract_Fiber::m_sched_mutex` -/
  | fiber (f : Nat)
  /-- `Abstract_Future::m_init_mutex` -/
  | future (f : Nat)
  /-- `Task_Scheduler::m_queue_mutex` -/
  | taskQueue
  /-- `Abstract_Task::m_sched_mutex` -/
  | task (i : Nat)
  /-- `Timer_Scheduler::m_pq_mutex` -/
  | timerQueue
  /-- `Abstract_Timer::m_sched_mutex` -/
  | timer (i : Nat)
  /-- `m_conf_mutex` of the MySQL, MongoDB or Redis connector -/
  | connConf (k : Nat)
  /-- `m_pool_mutex` of the same -/
  | connPool (k : Nat)
  /-- `Main_Config::m_mutex` -/
  | mainConf
  /-- `s_gen_mutex` in uuid.cpp -/
  | uuid
  /-- `Logger::m_queue_mutex` -/
  | logQueue
  /-- `Logger::m_sched_mutex` -/
  | logIo
  /-- `Logger::m_conf_mutex` -/
  | logConf
deriving DecidableEq, Repr

/-- Whether a mutex is a `recursive_mutex`; others are `plain_mutex`.  (abstract_socket.hpp, abstract_task.hpp, abstract_timer.hpp, abstract_fiber.hpp, logger.hpp: `m_sched_mutex`) -/
def Lock.recursive : Lock → Bool
  | .sock _ | .fiber _ | .task _ | .timer _ | .logIo => true
  | _ => false

inductive Op where
  | acq (l : Lock)
  | rel (l : Lock)
deriving DecidableEq, Repr

open Op Lock

/-- `Logger::enqueue()`, called `n` times.  (logger.cpp:305-325) -/
def logs : Nat → List Op
  | 0 => []
  | n + 1 => acq logQueue :: rel logQueue :: logs n

/-- A call of a function of the library, from a thread of the library or of the user. -/
inductive Call where
  /-- `POSEIDON_LOG_*` -/
  | log
  /-- `Logger::synchronize()`; `some` when messages are pending -/
  | synchronize (pending : Bool)
  /-- `Logger::reload()` -/
  | reloadLogger
  /-- `tcp_send()`, `tcp_shut_down()`, `udp_send()` and whatever is built on them without compression -/
  | send (s : Nat) (logged : Nat)
  /-- `ws_send()` of a message that is compressed; `failed` when compression throws and the message is sent as it is -/
  | sendCompressed (s : Nat) (logged : Nat) (failed : Bool)
  /-- decompression of a received frame -/
  | inflate (s : Nat)
  /-- `Network_Scheduler::insert_weak()` -/
  | insertSocket (logged : Nat)
  /-- `Network_Scheduler::server_ssl_ctx()`, `client_ssl_ctx()`, `reload()` -/
  | network
  /-- `Task_Scheduler::launch()` -/
  | launchTask
  /-- `Timer_Scheduler::insert_weak()` -/
  | insertTimer
  /-- `Fiber_Scheduler::launch()`, `size()` -/
  | launchFiber
  /-- `Fiber_Scheduler::reload()` -/
  | reloadFibers
  /-- `connect()` of an easy client -/
  | connect (t : Nat)
  /-- a session of an easy server or client passes on an event; `launch` when no fiber is active for it -/
  | push (t : Nat) (launch : Bool) (logged : Nat)
  /-- the fiber of a session takes an event; or an acceptor adds a session -/
  | table (t : Nat)
  /-- `allocate_connection()`, `allocate_default_connection()` -/
  | allocate (k : Nat)
  /-- `pool_connection()`; `off` when the pool is disabled -/
  | pool (k : Nat) (off : Bool) (logged : Nat)
  /-- `reload()` and setters of a connector -/
  | reloadConnector (k : Nat)
  /-- `Main_Config::copy()`, `reload()` -/
  | mainConfig
  /-- `UUID::random_v4()`, `random_v7()` -/
  | uuid
deriving DecidableEq, Repr

/-- The lock operations of a call. -/
def Call.ops : Call → List Op
  -- logger.cpp:305-325
  | .log => logs 1
  -- logger.cpp:327-364
  | .synchronize false => [acq logQueue, acq logIo, rel logIo, rel logQueue]
  | .synchronize true => [acq logQueue, acq logIo, rel logQueue, acq logConf, rel logConf, rel logIo]
  -- logger.cpp:224-268
  | .reloadLogger => [acq logIo, acq logConf, rel logConf, rel logIo]
  -- tcp_socket.cpp:181-263, ssl_socket.cpp:234-322, abstract_socket.cpp:74-82
  | .send s n => acq (.sock s) :: (logs n ++ [rel (.sock s)])
  -- ws_server_session.cpp:285-324, ws_client_session.cpp:257-296: the mutex of the deflator is locked until the frame has been sent
  | .sendCompressed s n false => acq (.deflate s) :: acq (.sock s) :: (logs n ++ [rel (.sock s), rel (.deflate s)])
  | .sendCompressed s n true => acq (.deflate s) :: (logs 1 ++ rel (.deflate s) :: acq (.sock s) :: (logs n ++ [rel (.sock s)]))
  -- ws_server_session.cpp:111-141, websocket_deflator.cpp:95-160
  | .inflate s => [acq (.inflate s), rel (.inflate s)]
  -- network_scheduler.cpp:326-400
  | .insertSocket n => acq epoll :: (logs n ++ [rel epoll])
  -- network_scheduler.cpp:64-93, 208-213
  | .network => [acq netConf, rel netConf]
  -- task_scheduler.cpp:48-58
  | .launchTask => [acq taskQueue, rel taskQueue]
  -- timer_scheduler.cpp:96-120
  | .insertTimer => [acq timerQueue, rel timerQueue]
  -- fiber_scheduler.cpp:395-423
  | .launchFiber => [acq fiberQueue, rel fiberQueue]
  -- fiber_scheduler.cpp:245-275
  | .reloadFibers => [acq fiberConf, rel fiberConf]
  -- easy_ws_client.cpp:247-260, easy_tcp_client.cpp:247-254, easy_http_client.cpp:235-242
  | .connect t => [acq (.table t), acq taskQueue, rel taskQueue, rel (.table t)]
  -- easy_ws_client.cpp:121-149, easy_tcp_client.cpp:136-165, easy_hws_server.cpp:122-152, easy_udp_server.cpp:100-130, easy_timer.cpp:100-130
  | .push t false n => acq (.table t) :: (logs n ++ [rel (.table t)])
  | .push t true n => acq (.table t) :: acq fiberQueue :: rel fiberQueue :: (logs n ++ [rel (.table t)])
  -- easy_ws_client.cpp:62-95, easy_ws_server.cpp:225-232
  | .table t => [acq (.table t), rel (.table t)]
  -- redis_connector.cpp:60-116 and the same in mysql_connector.cpp, mongo_connector.cpp
  | .allocate k => [acq (.connConf k), rel (.connConf k), acq (.connPool k), rel (.connPool k)]
  -- redis_connector.cpp:118-160 and the same in mysql_connector.cpp, mongo_connector.cpp
  | .pool k true n => acq (.connConf k) :: rel (.connConf k) :: logs n
  | .pool k false n => logs n ++ [acq (.connConf k), rel (.connConf k), acq (.connPool k), rel (.connPool k)]
  -- redis_connector.cpp:52-57, mysql_connector.cpp:71-78, mongo_connector.cpp:57-62
  | .reloadConnector k => [acq (.connConf k), rel (.connConf k)]
  -- main_config.cpp:20-40
  | .mainConfig => [acq mainConf, rel mainConf]
  -- uuid.cpp:44-85
  | .uuid => [acq .uuid, rel .uuid]

/-- The lock operations of a number of calls in turn. -/
def body (cs : List Call) : List Op := cs.flatMap Call.ops

/-- What code that does not run in a network callback may do. -/
inductive Item where
  | call (c : Call)
  /-- a fiber waits for a future: `yield()` -/
  | await (f : Nat)
  /-- a future is initialized; the initializer makes some calls -/
  | init (f : Nat) (cs : List Call)
  /-- `do_abstract_future_initialize_once()` on a future that is initialized already -/
  | inited (f : Nat)
deriving DecidableEq, Repr

def Item.ops : Item → List Op
  | .call c => c.ops
  -- fiber_scheduler.cpp:212-221
  | .await f => [acq (.future f), rel (.future f)]
  -- abstract_future.cpp:26-58
  | .init f cs => acq (.future f) :: (logs 1 ++ (body cs ++ (logs 1 ++ [rel (.future f)])))
  | .inited f => [acq (.future f), rel (.future f)]

def items (is : List Item) : List Op := is.flatMap Item.ops

/-- One round of the network thread. -/
inductive NetRun where
  /-- there is no epoll object yet -/
  | none
  /-- no event arrives; a message is logged -/
  | idle
  /-- an event for a socket that is gone; `collected` when `epoll_wait()` is called -/
  | gone (collected : Bool)
  /-- an event for socket `s`, whose callbacks make the calls `cs`; then messages are logged -/
  | event (collected : Bool) (s : Nat) (cs : List Call) (logged : Nat)
deriving DecidableEq, Repr

/-- `Network_Scheduler::thread_loop()`.  Each `lock.lock(m)` unlocks what `lock` had locked, and then locks `m`.  (network_scheduler.cpp:216-323) -/
def NetRun.ops : NetRun → List Op
  | .none => [acq netConf, rel netConf, acq epoll, rel epoll]
  | .idle => [acq netConf, rel netConf, acq epoll, rel epoll, acq .event, acq logQueue, rel logQueue, rel .event]
  | .gone c => acq netConf :: rel netConf :: acq epoll :: rel epoll :: acq .event :: (logs c.toNat ++ [rel .event, acq epoll, rel epoll])
  | .event c s cs n => acq netConf :: rel netConf :: acq epoll :: rel epoll :: acq .event :: (logs c.toNat ++
      rel .event :: acq epoll :: acq (.sock s) :: rel epoll :: (body cs ++ (logs n ++ [rel (.sock s)])))

/-- One round of a task thread: task `i` is executed and does `is`, or is skipped because it has been abandoned.  (task_scheduler.cpp:21-46) -/
def taskRun (i : Nat) : Option (List Item) → List Op
  | none => [acq taskQueue, rel taskQueue]
  | some is => acq taskQueue :: acq (.task i) :: rel taskQueue :: (logs 1 ++ (items is ++ [rel (.task i)]))

/-- One round of the timer thread: timer `i` ticks and does `is`, or is gone or abandoned.  (timer_scheduler.cpp:55-92) -/
def timerRun (i : Nat) : Option (List Item) → List Op
  | none => [acq timerQueue, rel timerQueue]
  | some is => acq timerQueue :: acq (.timer i) :: rel timerQueue :: (logs 1 ++ (items is ++ [rel (.timer i)]))

/-- One round of the logger thread.  (logger.cpp:270-303) -/
def loggerRun : List Op := [acq logQueue, acq logIo, rel logQueue, acq logConf, rel logConf, rel logIo]

/-- One round of the main thread. -/
inductive MainRun where
  /-- no fiber is ready, or one has ended and is removed -/
  | idle (logged : Nat)
  /-- fiber `f` is started or resumed, and does `is` until it yields or ends -/
  | fiber (logged : Nat) (f : Nat) (is : List Item)
  /-- anything else, such as reloading -/
  | other (is : List Item)
deriving DecidableEq, Repr

/-- `Fiber_Scheduler::thread_loop()`, or anything else.  (fiber_scheduler.cpp:277-391, main.cpp:545-556) -/
def MainRun.ops : MainRun → List Op
  | .idle n => acq fiberConf :: rel fiberConf :: acq fiberQueue :: (logs n ++ [rel fiberQueue])
  | .fiber n f is => acq fiberConf :: rel fiberConf :: acq fiberQueue :: acq (.fiber f) :: rel fiberQueue ::
      (logs n ++ (items is ++ [rel (.fiber f)]))
  | .other is => items is

/-- What all threads do.  (main.cpp:374-385: one network thread, one timer thread, one logger thread and several task threads; fibers run in the main thread) -/
structure Program where
  network : List NetRun := []
  main : List MainRun := []
  timer : List (Nat × Option (List Item)) := []
  /-- how many times the logger thread finds messages -/
  logger : Nat := 0
  /-- tasks that each task thread executes, with what they do -/
  tasks : List (List (Nat × Option (List Item))) := []
  /-- threads of the user -/
  others : List (List Item) := []

/-- The lock operations of each thread; the network thread comes first. -/
def Program.threads (p : Program) : List (List Op) :=
  p.network.flatMap NetRun.ops
    :: p.main.flatMap MainRun.ops
    :: p.timer.flatMap (fun x => timerRun x.1 x.2)
    :: (List.replicate p.logger ()).flatMap (fun _ => loggerRun)
    :: (p.tasks.map (fun rs => rs.flatMap fun x => taskRun x.1 x.2) ++ p.others.map items)

/-- A thread: what it has locked (latest first) and what it will do. -/
structure Thr where
  held : List Lock := []
  rest : List Op := []
deriving DecidableEq, Repr

abbrev State := List Thr

def Program.start (p : Program) : State := p.threads.map fun ops => { rest := ops }

/-- Whether thread `k` can lock `l` now: no other thread has it locked, nor has the thread itself, unless the mutex is recursive. -/
def free (st : State) (k : Nat) (l : Lock) : Bool :=
  st.zipIdx.all fun x => !x.1.held.contains l || (x.2 == k && l.recursive)

/-- Thread `k` does its next operation, if it can. -/
def step (k : Nat) (st : State) : Option State :=
  match st[k]? with
  | none => none
  | some t =>
    match t.rest with
    | [] => none
    | .acq l :: r => if free st k l then some (st.set k { held := l :: t.held, rest := r }) else none
    | .rel l :: r => if t.held.contains l then some (st.set k { held := t.held.erase l, rest := r }) else none

/-- Threads do their operations in a given order. -/
def run (st : State) : List Nat → Option State
  | [] => some st
  | k :: ks => (step k st).bind fun st' => run st' ks

end Verif.Locks
