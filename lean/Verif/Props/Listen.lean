import Verif.Spec.Listen
/-!
# C69, C70: packets and connections
-/
namespace Verif.Props
open Verif.Listen

theorem port_source (sa : Sockaddr) : ntohs sa.port = (sourceOf sa).port := by simp only [ntohs, sourceOf, Nat.mul_comm]

/-- C69.  Each packet that can be read is passed to the callback once, in order, as a whole, and with the address where it comes from, whatever callbacks do to the buffer, whether they throw exceptions, and no
matter what errors there are in between.  (A UDP packet can't have more than 65535 bytes.) -/
theorem C69_packets (cap : Nat → Nat) (hc : ∀ n, 65535 ≤ cap n) (cb : Nat → Effect) (n : Nat) (s : Sock) (script : List Recv)
    (hl : ∀ sa data, .packet sa data ∈ script → data.length ≤ 65535) : (onPackets cap cb n s script).calls = packetsOf script := by
  induction script generalizing n s with
  | nil => rfl
  | cons x r ih =>
    have ih := fun n s => ih n s fun sa d h => hl sa d (.tail _ h)
    cases x with
    | again => rfl
    | error => exact ih _ _
    | packet sa data =>
      have hd := hl sa data (.head _)
      have ht : data.take (cap n) = data := List.take_of_length_le (by have := hc n; omega)
      simp only [onPackets, packetsOf, ht, List.nil_append, port_source]
      split <;> exact congrArg _ (ih _ _)

/-- C69.  The function returns exactly if there is a time when no packet can be read. -/
theorem C69_returns (cap : Nat → Nat) (cb : Nat → Effect) (n : Nat) (s : Sock) (script : List Recv) : (onPackets cap cb n s script).how = .returned ↔ .again ∈ script := by
  induction script generalizing n s with
  | nil => simp [onPackets]
  | cons x r ih =>
    cases x with
    | again => simp [onPackets]
    | error => simp only [onPackets, ih]; simp
    | packet sa data =>
      simp only [onPackets]
      split <;> (simp only [Out.prepend, ih]; simp)

def listenAddr (p : UInt8) : Sockaddr := { addr := List.replicate 16 p, port := (1, p) }

example : (∀ n, 65535 ≤ (fun _ : Nat => 65536) n) ∧ onPackets (fun _ => 65536) (fun n => { queue := [9, 9], from_ := { port := 7 }, threw := n = 0 }) 0 { queue := [1] }
    [.packet (listenAddr 5) [1, 2, 3], .error, .packet (listenAddr 6) [], .packet (listenAddr 5) [4], .again, .packet (listenAddr 5) [5]] =
    { calls := [({ addr := List.replicate 16 5, port := 261 }, [1, 2, 3]), ({ addr := List.replicate 16 6, port := 262 }, []), ({ addr := List.replicate 16 5, port := 261 }, [4])],
      how := .returned } := ⟨by simp, by decide +kernel⟩

/-- C69.  A packet is sent as a whole, to the given address, at most once; it has been passed to the kernel if and only if true is returned. -/
theorem C69_send (closing : Bool) (send : Sockaddr → Bytes → Bool) (addr : Address) (hp : addr.port < 65536) (data : Bytes) :
    match udpSend closing send addr data with
    | (some (sa, d), r) => r = true ∧ closing = false ∧ sourceOf sa = addr ∧ d = data
    | (none, r) => r = false := by
  unfold udpSend
  cases closing
  · simp only [Bool.false_eq_true, if_false]
    split
    · rename_i x heq
      split at heq
      · simp only [Prod.mk.injEq, Option.some.injEq] at heq
        obtain ⟨⟨rfl, rfl⟩, rfl⟩ := heq
        refine ⟨rfl, trivial, ?_, rfl⟩
        unfold sourceOf htons
        have : 256 * (UInt8.ofNat (addr.port / 256)).toNat + (UInt8.ofNat addr.port).toNat = addr.port := by
          simp only [UInt8.toNat_ofNat']
          omega
        simp only [this]
      · simp at heq
    · rename_i r heq
      split at heq
      · simp at heq
      · simp only [Prod.mk.injEq] at heq
        exact heq.2.symm
  · simp

example : udpSend false (fun _ _ => true) { port := 8080 } [1, 2] = (some ({ addr := List.replicate 16 0, port := (31, 144) }, [1, 2]), true) ∧
    udpSend true (fun _ _ => true) { port := 8080 } [1, 2] = (none, false) := by decide +kernel

theorem onConnections_returns (cb : Nat → Taken) (n : Nat) (k : Kernel) (h : keptCount (numbered cb n k.backlog) < k.free) :
    onConnections cb (k.backlog.length + 1) n k = ({ calls := numbered cb n k.backlog, how := .returned }, { backlog := [], free := k.free - keptCount (numbered cb n k.backlog) }) := by
  obtain ⟨b, f⟩ := k
  induction b generalizing n f with
  | nil =>
    simp only [numbered, keptCount, List.filter_nil, List.length_nil] at h ⊢
    simp only [onConnections, accept4]
    rw [if_neg (by omega)]
    rfl
  | cons sa r ih =>
    simp only [numbered, keptCount, List.filter_cons] at h ⊢
    rw [List.length_cons, onConnections]
    simp only [accept4]
    rw [if_neg (by omega)]
    simp only [port_source]
    have hk : cb n = .kept ∨ (cb n ≠ .kept ∧ (cb n).closed = true) := by cases cb n <;> simp [Taken.closed]
    rcases hk with hk | ⟨hk, hcl⟩
    · simp only [hk, decide_true, if_true, List.length_cons, Taken.closed, Bool.false_eq_true, if_false] at h ⊢
      rw [ih (n + 1) (f - 1) (by simp only [keptCount]; omega)]
      simp only [Out.prepend, sourceOf, keptCount]
      refine Prod.ext rfl ?_
      simp only [Kernel.mk.injEq, true_and]
      omega
    · simp only [hk, decide_false, Bool.false_eq_true, if_false, hcl, if_true] at h ⊢
      rw [ih (n + 1) (f - 1 + 1) (by simp only [keptCount]; omega)]
      simp only [Out.prepend, sourceOf, keptCount]
      refine Prod.ext rfl ?_
      simp only [Kernel.mk.injEq, true_and]
      omega

/-- The loop does not go on after it has returned. -/
theorem onConnections_mono (cb : Nat → Taken) {a b : Nat} (h : a ≤ b) (n : Nat) (k : Kernel) (hr : (onConnections cb a n k).1.how = .returned) : onConnections cb b n k = onConnections cb a n k := by
  induction a generalizing b n k with
  | zero => simp [onConnections] at hr
  | succ a ih =>
    obtain ⟨b, rfl⟩ : ∃ c, b = c + 1 := ⟨b - 1, by omega⟩
    simp only [onConnections] at hr ⊢
    split
    · rename_i he; simp only [he] at hr; exact ih (by omega) _ _ hr
    · rfl
    · rename_i sa k' he
      simp only [he] at hr
      rw [ih (by omega) _ _ hr]

/-- C70.  If there are enough file descriptors, then handling an event of an acceptor ends, after each connection has been passed to the callback once, in order, with the address where it
comes from; there is a file descriptor for each socket that has been kept, and all others have been closed.  (See `C70_endless` for the other case.) -/
theorem C70_connections_partial (cb : Nat → Taken) (k : Kernel) (h : keptCount (numbered cb 0 k.backlog) < k.free) :
    ∃ f, ∀ g, f ≤ g → onConnections cb g 0 k = ({ calls := numbered cb 0 k.backlog, how := .returned }, { backlog := [], free := k.free - keptCount (numbered cb 0 k.backlog) }) := by
  have := onConnections_returns cb 0 k h
  exact ⟨_, fun g hg => by rw [onConnections_mono cb hg 0 k (by rw [this]), this]⟩

def listenPick (n : Nat) : Taken := if n = 1 then .refused else if n = 2 then .threw else .kept

example : keptCount (numbered listenPick 0 [listenAddr 1, listenAddr 2, listenAddr 3, listenAddr 4]) < 3 ∧
    onConnections listenPick 5 0 { backlog := [listenAddr 1, listenAddr 2, listenAddr 3, listenAddr 4], free := 3 } =
      ({ calls := [({ addr := List.replicate 16 1, port := 257 }, .kept), ({ addr := List.replicate 16 2, port := 258 }, .refused), ({ addr := List.replicate 16 3, port := 259 }, .threw),
        ({ addr := List.replicate 16 4, port := 260 }, .kept)], how := .returned }, { backlog := [], free := 1 }) := by decide +kernel

/-- C70.  At any time, what has been passed to the callback are the first connections, once and in order. -/
theorem C70_order (cb : Nat → Taken) (fuel : Nat) (n : Nat) (k : Kernel) : (onConnections cb fuel n k).1.calls <+: numbered cb n k.backlog ∧
    (onConnections cb fuel n k).2.free + keptCount (onConnections cb fuel n k).1.calls = k.free := by
  induction fuel generalizing n k with
  | zero => simp [onConnections, keptCount]
  | succ f ih =>
    simp only [onConnections]
    obtain ⟨b, fr⟩ := k
    unfold accept4
    by_cases h0 : fr = 0
    · simp only [h0, if_true]; exact ih n { backlog := b, free := 0 }
    · simp only [h0, if_false]
      cases b with
      | nil => simp [keptCount]
      | cons sa r =>
        simp only [numbered, Out.prepend, port_source]
        have hk : cb n = .kept ∨ (cb n ≠ .kept ∧ (cb n).closed = true) := by cases cb n <;> simp [Taken.closed]
        rcases hk with hk | ⟨hk, hcl⟩
        · simp only [hk, Taken.closed, Bool.false_eq_true, if_false]
          have := ih (n + 1) { backlog := r, free := fr - 1 }
          refine ⟨List.cons_prefix_cons.mpr ⟨rfl, this.1⟩, ?_⟩
          have h2 := this.2
          simp only [keptCount, List.filter_cons, decide_true, if_true, List.length_cons] at h2 ⊢
          omega
        · simp only [hcl, if_true]
          have := ih (n + 1) { backlog := r, free := fr - 1 + 1 }
          refine ⟨List.cons_prefix_cons.mpr ⟨rfl, this.1⟩, ?_⟩
          have h2 := this.2
          simp only [keptCount, List.filter_cons, hk, decide_false, Bool.false_eq_true, if_false] at h2 ⊢
          omega

/-- C70 is violated: the error that there is no more file descriptor is ignored, and accepting is tried again, without end, by the only network thread.  This happens exactly if as many sockets
are kept as there are file descriptors. -/
theorem C70_endless (cb : Nat → Taken) (k : Kernel) (h : k.free ≤ keptCount (numbered cb 0 k.backlog)) (fuel : Nat) : (onConnections cb fuel 0 k).1.how = .looping := by
  suffices ∀ fuel n (k : Kernel), k.free ≤ keptCount (numbered cb n k.backlog) → (onConnections cb fuel n k).1.how = .looping from this fuel 0 k h
  clear h k fuel
  intro fuel
  induction fuel with
  | zero => intro n k h; rfl
  | succ f ih =>
    intro n ⟨b, fr⟩ h
    simp only [onConnections]
    unfold accept4
    by_cases h0 : fr = 0
    · simp only [h0, if_true]; exact ih n { backlog := b, free := 0 } (Nat.zero_le _)
    · simp only [h0, if_false]
      cases b with
      | nil => simp [numbered, keptCount] at h; omega
      | cons sa r =>
        simp only [Out.prepend]
        simp only [numbered, keptCount, List.filter_cons] at h
        have hk : cb n = .kept ∨ (cb n ≠ .kept ∧ (cb n).closed = true) := by cases cb n <;> simp [Taken.closed]
        rcases hk with hk | ⟨hk, hcl⟩
        · simp only [hk, decide_true, if_true, List.length_cons] at h
          refine ih _ _ ?_
          simp only [hk, Taken.closed, Bool.false_eq_true, if_false, keptCount]
          omega
        · simp only [hk, decide_false, Bool.false_eq_true, if_false] at h
          refine ih _ _ ?_
          simp only [hcl, if_true, keptCount]
          omega

example : ({ backlog := [listenAddr 1], free := 1 } : Kernel).free ≤ keptCount (numbered (fun _ => .kept) 0 [listenAddr 1]) ∧
    (onConnections (fun _ => .kept) 100 0 { backlog := [listenAddr 1], free := 1 }).1.how = .looping := by decide +kernel

end Verif.Props
