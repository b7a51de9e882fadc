import Verif.Proofs.UdpLink
import Verif.Props.EasyQueue
/-!
# C118: UDP packets from end to end

`got w i q` is what the callback of the server or client `i` has got since its start number `q`; `brought` is what the network has brought to its socket.  Logs have the newest event first.
-/
namespace Verif.Props
open Verif.Listen Verif.UdpLink

/-- C118.  What the callback has got is what the network has brought to the socket, in order, each packet at most once, and some of them may be missing. -/
theorem C118_order {N : Net} {w : World} (h : Reachable N w) (i q : Nat) : (got w i q).Sublist (brought w.log i q) := by
  rw [(inv h).all i q, List.append_assoc]
  exact ((C71_order ((inv h).easy i) q).sublist.trans (arrivals_handed _ q)).trans (List.sublist_append_left _ _)

/-- C118.  Each packet that the callback gets has been sent by a thread through a socket which has the address that the callback is told, and to an address of the receiver, with exactly these data.
So there are no packets out of nothing, no parts of packets, and no packets for others. -/
theorem C118_sent {N : Net} {w : World} (h : Reachable N w) {i q : Nat} {a : Address} {data : Bytes} (hg : (a, data) ∈ got w i q) :
    ∃ j p dst, a = sourceOf (N.name j p) ∧ N.reach dst i q = true ∧ .sent j p (sourceOf dst) data true ∈ w.log := by
  have hb := (C118_order h i q).subset hg
  have hm : ∀ {log : List UdpLink.Ev}, (a, data) ∈ brought log i q → ∃ src, a = sourceOf src ∧ .delivered i q src data ∈ log := by
    intro log
    induction log with
    | nil => intro hn; cases hn
    | cons e log ih =>
      intro hn
      have tail : (a, data) ∈ brought log i q → ∃ src, a = sourceOf src ∧ .delivered i q src data ∈ e :: log := fun hn =>
        let ⟨src, h1, h2⟩ := ih hn
        ⟨src, h1, .tail _ h2⟩
      cases e with
      | sent _ _ _ _ ok => cases ok <;> exact tail hn
      | delivered j p src d =>
        simp only [brought] at hn
        split at hn
        · rename_i he
          obtain ⟨rfl, rfl⟩ := he
          rcases List.mem_append.mp hn with hn | hn
          · exact tail hn
          · simp only [List.mem_singleton, Prod.mk.injEq] at hn
            obtain ⟨rfl, rfl⟩ := hn
            exact ⟨src, rfl, .head _⟩
        · exact tail hn
  obtain ⟨src, rfl, hd⟩ := hm hb
  obtain ⟨dst, hw, hr⟩ := (inv h).from_ _ _ _ _ hd
  obtain ⟨-, j, p, rfl, hs⟩ := (inv h).wire _ _ _ hw
  exact ⟨j, p, dst, rfl, hr, hs⟩

/-- C118.  When the kernel has no more packets for the socket, the network thread has processed those it has taken, and all fibers have returned, then the callback has got exactly what the network
has brought, unless the object has been stopped or started again, or there was not enough memory. -/
theorem C118_complete {N : Net} {w : World} (h : Reachable N w) {i q : Nat} (hrx : w.rx i q = []) (hn : (w.ends i).net = none) (hf : ∀ x ∈ (w.ends i).fibs, x.st = .done)
    (hs : .stopped q ∉ (w.ends i).trace) (hm : ∀ x, .failed q x ∉ (w.ends i).trace) : got w i q = brought w.log i q := by
  have hi : ∀ x, .ignored q x ∉ (w.ends i).trace := fun x hx => by
    obtain ⟨post, pre, ht⟩ := List.append_of_mem hx
    exact hs (by rw [ht]; exact List.mem_append_right _ (.tail _ (C71_ignored ((inv h).easy i) ht)))
  rw [(inv h).all i q, hrx, List.map_nil, List.append_nil, ← arrivals_all hm hi, show pending (w.ends i) q = [] by unfold pending; rw [hn], List.append_nil]
  exact C71_delivered ((inv h).easy i) hf hs

/-- C118.  So if the network has brought to the socket what one thread after another has sent through another socket to an address of it, once and in order, then that is what the callback has got. -/
theorem C118_faithful {N : Net} {w : World} (h : Reachable N w) {i q j p : Nat} {to : Address} (hb : brought w.log i q = (sentBy w.log j p to).map (sourceOf (N.name j p), ·))
    (hrx : w.rx i q = []) (hn : (w.ends i).net = none) (hf : ∀ x ∈ (w.ends i).fibs, x.st = .done) (hs : .stopped q ∉ (w.ends i).trace) (hm : ∀ x, .failed q x ∉ (w.ends i).trace) :
    (got w i q).map (·.2) = sentBy w.log j p to ∧ ∀ x ∈ got w i q, x.1 = sourceOf (N.name j p) := by
  rw [C118_complete h hrx hn hf hs hm, hb]
  refine ⟨by rw [List.map_map]; exact List.map_id'' (fun _ => rfl) _, fun x hx => ?_⟩
  obtain ⟨d, -, rfl⟩ := List.mem_map.mp hx
  rfl

/-- C118.  The callback is called by one fiber at a time, and while it runs the socket that has been passed to it exists, so answers can be sent through it. -/
theorem C118_callback {N : Net} {w : World} (h : Reachable N w) {i q f : Nat} :
    (∀ post pre x, (w.ends i).trace = post ++ .called f q x :: pre → EasyQueue.running pre q = none) ∧
    (EasyQueue.running (w.ends i).trace q = some f → EasyQueue.socketAlive (w.ends i) q = true) :=
  ⟨fun _ _ _ ht => C71_not_concurrent ((inv h).easy i) ht, fun hr => (C71_alive ((inv h).easy i) hr).2⟩

theorem udp_run_reachable {N : Net} {w w' : World} (h : UdpLink.Reachable N w) : ∀ {as : List UdpLink.Act}, UdpLink.run N w as = some w' → UdpLink.Reachable N w'
  | [], hr => by simp only [UdpLink.run, Option.some.injEq] at hr; subst hr; exact h
  | a :: as, hr => by
    simp only [UdpLink.run] at hr
    split at hr
    · cases hr
    · rename_i s hs
      exact udp_run_reachable (.step a h hs) hr

/-- Each object has an address, where the port is one thousand and the number of the start. -/
def udpNet : Net :=
  { name := fun i q => { addr := List.replicate 15 0 ++ [UInt8.ofNat i], port := htons (1000 + q) },
    reach := fun dst i q => dst = { addr := List.replicate 15 0 ++ [UInt8.ofNat i], port := htons (1000 + q) } }

def udpServer : Address := { addr := List.replicate 15 0 ++ [1], port := 1000 }
def udpClient : Address := { addr := List.replicate 15 0 ++ [0], port := 1000 }

/-- The client sends two packets to the server, of which the callback answers the first one. -/
def udpDemo : List UdpLink.Act :=
  let e : Effect := { queue := [9], from_ := {}, threw := false }
  [.easy 0 .create, .easy 0 .assign, .easy 0 .assign, .easy 1 .create, .easy 1 .assign, .easy 1 .assign, .send 0 0 false true udpServer [1, 2, 3], .send 0 0 false true udpServer [],
   .deliver 1 0 0, .deliver 1 0 1, .recv 1 0 70000 e, .easy 1 (.push .no), .recv 1 0 70000 e, .easy 1 (.push .no), .easy 1 (.resume 0), .easy 1 (.enter 0), .easy 1 (.pop 0),
   .send 1 0 false true udpClient [7], .easy 1 (.back 0), .easy 1 (.enter 0), .easy 1 (.pop 0), .easy 1 (.back 0), .easy 1 (.enter 0), .easy 1 (.pop 0), .deliver 0 0 2, .recv 0 0 65535 e,
   .easy 0 (.push .no), .easy 0 (.resume 0), .easy 0 (.enter 0), .easy 0 (.pop 0), .easy 0 (.back 0), .easy 0 (.enter 0), .easy 0 (.pop 0)]

example : ∃ w, UdpLink.Reachable udpNet w ∧ got w 1 0 = [(udpClient, [1, 2, 3]), (udpClient, [])] ∧ got w 0 0 = [(udpServer, [7])] ∧
    brought w.log 1 0 = (sentBy w.log 0 0 udpServer).map (sourceOf (udpNet.name 0 0), ·) ∧ w.rx 1 0 = [] ∧ (w.ends 1).net = none ∧ (∀ x ∈ (w.ends 1).fibs, x.st = .done) ∧
    .stopped 0 ∉ (w.ends 1).trace :=
  ⟨_, udp_run_reachable .init (show UdpLink.run udpNet {} udpDemo = some _ from rfl), by decide +kernel, by decide +kernel, by decide +kernel, by decide +kernel, by decide +kernel,
    by decide +kernel, by decide +kernel⟩

end Verif.Props
