import Verif.Model.DnsConnect
/-! # C100: connecting to a host -/
namespace Verif.Props
open Verif.DnsConnect

/-- Specification: the addresses of a host that a socket can be connected to, as 16-byte addresses, in the order of the resolver -/
def DnsConnect.targets : List Addr → List Bytes
  | [] => []
  | .v4 a :: t => ([0, 0, 0, 0, 0, 0, 0, 0, 0, 0, 0xFF, 0xFF] ++ a) :: targets t
  | .v6 a :: t => a :: targets t
  | .other :: t => targets t

/-- what a call of `connect()` gives -/
def DnsConnect.Accepted (env : Env) (port k : Nat) (a : Bytes) : Prop := env.connect k a port = .connected ∨ env.connect k a port = .inProgress

open DnsConnect (targets Accepted)

theorem DnsConnect.ok_iff (c : Conn) : ok c = true ↔ c = .connected ∨ c = .inProgress := by cases c <;> decide

theorem DnsConnect.tryAll_spec (env : Env) (port : Nat) (l : List Addr) : ∀ n,
    (tryAll env port n l).1 <+: (targets l).map (fun a => (a, port)) ∧
    (∀ k a, (tryAll env port n l).1[k]? = some (a, port) → k + 1 < (tryAll env port n l).1.length → ¬ Accepted env port (n + k) a) ∧
    ((tryAll env port n l).2 = true ↔ ∃ k a, (tryAll env port n l).1.length = k + 1 ∧ (targets l)[k]? = some a ∧ Accepted env port (n + k) a) ∧
    ((tryAll env port n l).2 = false → (tryAll env port n l).1 = (targets l).map (fun a => (a, port))) := by
  induction l with
  | nil => intro n; simp [tryAll, targets]
  | cons x t ih =>
    intro n
    have key : ∀ b : Bytes, targets (x :: t) = b :: targets t →
        tryAll env port n (x :: t) = (if ok (env.connect n b port) then ([(b, port)], true) else ((b, port) :: (tryAll env port (n + 1) t).1, (tryAll env port (n + 1) t).2)) →
        (tryAll env port n (x :: t)).1 <+: (targets (x :: t)).map (fun a => (a, port)) ∧
        (∀ k a, (tryAll env port n (x :: t)).1[k]? = some (a, port) → k + 1 < (tryAll env port n (x :: t)).1.length → ¬ Accepted env port (n + k) a) ∧
        ((tryAll env port n (x :: t)).2 = true ↔ ∃ k a, (tryAll env port n (x :: t)).1.length = k + 1 ∧ (targets (x :: t))[k]? = some a ∧ Accepted env port (n + k) a) ∧
        ((tryAll env port n (x :: t)).2 = false → (tryAll env port n (x :: t)).1 = (targets (x :: t)).map (fun a => (a, port))) := by
      intro b h1 h2
      obtain ⟨i1, i2, i3, i4⟩ := ih (n + 1)
      rw [h1, h2]
      by_cases hb : ok (env.connect n b port) = true
      · rw [if_pos hb]
        refine ⟨by simp, by simp, ?_, by simp⟩
        simp only [true_iff]
        exact ⟨0, b, rfl, rfl, (ok_iff _).mp hb⟩
      · rw [if_neg hb]
        refine ⟨by simpa using i1, ?_, ?_, fun h => by simp [i4 h]⟩
        · intro k a hk hl
          cases k with
          | zero =>
            simp only [List.getElem?_cons_zero, Option.some.injEq, Prod.mk.injEq, and_true] at hk
            subst hk
            exact fun h => hb ((ok_iff _).mpr h)
          | succ k =>
            have := i2 k a (by simpa using hk) (by simpa using hl)
            rwa [show n + 1 + k = n + (k + 1) by omega] at this
        · simp only
          rw [i3]
          constructor
          · rintro ⟨k, a, hl, hk, ha⟩
            exact ⟨k + 1, a, by simp [hl], by simpa using hk, by rwa [show n + 1 + k = n + (k + 1) by omega] at ha⟩
          · rintro ⟨k, a, hl, hk, ha⟩
            cases k with
            | zero =>
              simp only [List.getElem?_cons_zero, Option.some.injEq] at hk
              subst hk
              exact absurd ((ok_iff _).mpr ha) hb
            | succ k => exact ⟨k, a, by simpa using hl, by simpa using hk, by rwa [show n + 1 + k = n + (k + 1) by omega]⟩
    cases x with
    | v4 a => exact key _ rfl rfl
    | v6 a => exact key _ rfl rfl
    | other => exact ih n

/-- C100.  If the host is resolved and the socket still exists, the addresses are tried one after another in the order of the resolver, each with the port that has been asked for, and IPv4 addresses as
mapped ones, until one is accepted; none is tried after that, and if none is accepted all of them have been tried. -/
theorem C100_order (env : Env) (host : Bytes) (port : Nat) (addrs : List Addr) (hr : env.resolve host = some addrs) (ha : env.alive = true) :
    (execute env host port).attempts <+: (targets addrs).map (fun a => (a, port)) ∧
    (∀ k a, (execute env host port).attempts[k]? = some (a, port) → k + 1 < (execute env host port).attempts.length → ¬ Accepted env port k a) ∧
    ((∀ k a, (targets addrs)[k]? = some a → ¬ Accepted env port k a) → (execute env host port).attempts = (targets addrs).map (fun a => (a, port)) ∧ (execute env host port).watched = false) ∧
    ((∃ k a, (targets addrs)[k]? = some a ∧ Accepted env port k a) → env.insert = true → (execute env host port).watched = true ∧
      ∃ k a, (execute env host port).attempts.length = k + 1 ∧ (targets addrs)[k]? = some a ∧ Accepted env port k a) := by
  obtain ⟨h1, h2, h3, h4⟩ := DnsConnect.tryAll_spec env port addrs 0
  have hat : (execute env host port).attempts = (tryAll env port 0 addrs).1 := by
    unfold execute; rw [hr]; simp only [ha, Bool.not_true, Bool.false_eq_true, if_false]
    split
    · split <;> rfl
    · rfl
  have hw : (execute env host port).watched = ((tryAll env port 0 addrs).2 && env.insert) := by
    unfold execute; rw [hr]; simp only [ha, Bool.not_true, Bool.false_eq_true, if_false]
    split
    · rename_i h; rw [h]; split
      · rename_i h'; rw [h']; rfl
      · rename_i h'; simp [h']
    · rename_i h; simp [h]
  simp only [Nat.zero_add] at h2 h3
  rw [hat, hw]
  refine ⟨h1, h2, fun hn => ?_, fun hex hi => ?_⟩
  · have : (tryAll env port 0 addrs).2 = false := by
      cases hb : (tryAll env port 0 addrs).2 with
      | false => rfl
      | true => obtain ⟨k, a, _, hk, hacc⟩ := h3.mp hb; exact absurd hacc (hn k a hk)
    exact ⟨h4 this, by simp [this]⟩
  · have : (tryAll env port 0 addrs).2 = true := by
      cases hb : (tryAll env port 0 addrs).2 with
      | true => rfl
      | false =>
        exfalso
        obtain ⟨k, a, hk, hacc⟩ := hex
        have hall := h4 hb
        by_cases hl : k + 1 < (tryAll env port 0 addrs).1.length
        · exact h2 k a (by rw [hall, List.getElem?_map, hk]; rfl) hl hacc
        · have hlen : (tryAll env port 0 addrs).1.length = k + 1 := by
            have hkl : k < (targets addrs).length := by
              rcases Nat.lt_or_ge k (targets addrs).length with h | h
              · exact h
              · rw [List.getElem?_eq_none h] at hk; cases hk
            have : (tryAll env port 0 addrs).1.length = (targets addrs).length := by rw [hall]; simp
            omega
          have := h3.mpr ⟨k, a, hlen, hk, hacc⟩
          rw [hb] at this; cases this
    exact ⟨by simp [this, hi], h3.mp this⟩

/-- C100.  A socket that exists is afterwards either watched by the network thread, which reports its establishment and its closure, or shut down, but not both.  PARTIAL: in the latter case its closure
is never reported, see `C100_silent`. -/
theorem C100_outcome_partial (env : Env) (host : Bytes) (port : Nat) (ha : env.alive = true) : (execute env host port).watched = !(execute env host port).shut := by
  unfold execute
  cases env.resolve host with
  | none => simp [ha]
  | some addrs =>
    simp only [ha, Bool.not_true, Bool.false_eq_true, if_false]
    split
    · split <;> rfl
    · rfl

/-- C100.  Nothing is done with a socket that no longer exists. -/
theorem C100_gone (env : Env) (host : Bytes) (port : Nat) (ha : env.alive = false) : execute env host port = {} := by
  unfold execute
  cases env.resolve host <;> simp [ha]

/-- a resolver that gives an IPv6 address, which cannot be reached, and an IPv4 address -/
def DnsConnect.demo : Env where
  resolve h := if h = b! "h" then some [.v6 [0x20, 1, 0, 0, 0, 0, 0, 0, 0, 0, 0, 0, 0, 0, 0, 1], .other, .v4 [10, 0, 0, 1], .v4 [10, 0, 0, 2]] else none
  connect n _ _ := if n = 0 then .failed else .inProgress

/-- C100, the full property fails: if the host cannot be resolved, the socket is shut down, but the network thread does not watch it, so that nothing is reported, although a comment says that a closure
notification is delivered even in the case of a failure. -/
theorem C100_silent : ∃ (env : Env) (host : Bytes) (port : Nat), env.alive = true ∧ (execute env host port).shut = true ∧ (execute env host port).watched = false :=
  ⟨DnsConnect.demo, b! "x", 80, by decide +kernel⟩

example : execute DnsConnect.demo (b! "h") 80 = { attempts := [([0x20, 1, 0, 0, 0, 0, 0, 0, 0, 0, 0, 0, 0, 0, 0, 1], 80), ([0, 0, 0, 0, 0, 0, 0, 0, 0, 0, 0xFF, 0xFF, 10, 0, 0, 1], 80)], watched := true } := by
  decide +kernel

end Verif.Props
