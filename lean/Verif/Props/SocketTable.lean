import Verif.Proofs.SocketTable
/-!
# C29: the table of sockets of the network scheduler
-/
namespace Verif.Props
open Verif.SocketTable

/-- C29: after any history of creations, registrations, destructions and events, with any addresses, the address of a socket that is alive
and registered leads to this socket. -/
theorem C29_reaches (s : Sys) (h : Reachable s) (o : Obj) (ha : s.alive o = true) (hr : s.registered o = true) :
    lookup s.addr s.alive s.map (s.addr o) = some (some o) := lookup_mem (inv h).map o ((inv h).present o ha hr) ha

/-- C29: an address at which there is no live registered socket leads to none. -/
theorem C29_none (s : Sys) (h : Reachable s) (a : Nat) (hn : ∀ o, s.alive o = true → s.registered o = true → s.addr o ≠ a) :
    lookup s.addr s.alive s.map a = some none := by
  obtain ⟨r, h1, h2⟩ := lookup_sound (alive := s.alive) (inv h).map a
  cases r with
  | none => exact h1
  | some o =>
    obtain ⟨g1, g2, g3⟩ := h2 o rfl
    exact absurd g3 (hn o g2 ((inv h).only o g1))

/-- C29: no assertion ever fails and no search ever passes the end of the table. -/
theorem C29_no_failure (s : Sys) (h : Reachable s) : s.failed = false := (inv h).ok

/-- C29: unless it has never been used, at least half of the table is free, so that a search ends. -/
theorem C29_free_slots (s : Sys) (h : Reachable s) : 2 * s.map.stor.countP Option.isSome ≤ s.map.stor.length := by
  have h1 := (inv h).map.load
  have h2 := (inv h).map.half
  unfold occupied at h1
  omega

/-- C29: an event that is taken while its socket is alive is delivered to it. -/
theorem C29_delivery (s s' : Sys) (h : Reachable s) (hs : Step s .deliver s') (o : Obj) (t : List Obj) (he : s.events = o :: t) (ha : s.alive o = true) :
    s'.delivered = (o, some o) :: s.delivered := by
  have hl := C29_reaches s h o ha (events_registered h o (by rw [he]; simp))
  cases hs with
  | deliver he' hl' =>
    rw [he] at he'
    obtain ⟨rfl, -⟩ := List.cons.inj he'
    rw [hl] at hl'
    rw [← Option.some.inj hl']
  | deliver_fail he' hl' =>
    rw [he] at he'
    obtain ⟨rfl, -⟩ := List.cons.inj he'
    rw [hl] at hl'
    exact nomatch hl'

/-- Sockets 0 and 1 are at addresses 800 and 8; socket 2 is at the address of socket 0. -/
def demoAddr (o : Obj) : Nat := if o = 1 then 8 else 800

theorem demo_insert : SocketTable.insert demoAddr (fun x => x == 0) (fun x => x == 0) {} 0 = some ⟨(List.replicate 17 none).set 13 (some 0), 1⟩ ∧
    SocketTable.insert demoAddr (fun x => x == 0 || x == 1) (fun x => x == 0 || x == 1) ⟨(List.replicate 17 none).set 13 (some 0), 1⟩ 1 =
      some ⟨((List.replicate 17 none).set 13 (some 0)).set 10 (some 1), 2⟩ := by decide +kernel

/-- Two sockets in the table: the hypotheses of the theorems above are met. -/
example : ∃ s : Sys, Reachable s ∧ s.alive 0 = true ∧ s.registered 0 = true ∧ s.alive 1 = true ∧ s.registered 1 = true ∧ s.events = [0] := by
  have r0 := Reachable.init demoAddr
  have r1 := r0.step (.create 0) (.create rfl rfl nofun)
  have r2 := r1.step (.insert 0 (fun x => x == 0) (fun x => x == 0)) (.insert rfl (by intro x; simp) (by intro x; simp) demo_insert.1)
  have r3 := r2.step (.create 1) (.create rfl rfl (by intro p hp; by_cases h : p = 0 <;> simp_all [demoAddr]))
  have r4 := r3.step (.insert 1 (fun x => x == 0 || x == 1) (fun x => x == 0 || x == 1)) (.insert rfl (by intro x; by_cases h : x = 1 <;> by_cases h2 : x = 0 <;> simp_all) (by intro x; simp) demo_insert.2)
  have r5 := r4.step (.poll 0) (.poll rfl rfl)
  exact ⟨_, r5, rfl, rfl, rfl, rfl, rfl⟩

/-- An event that is still in the buffer when its socket is destroyed may be delivered to another socket that was created at the same address. -/
theorem C29_stale_event : ∃ s s' : Sys, Reachable s ∧ s.events = [0] ∧ s.alive 0 = false ∧ Step s .deliver s' ∧ s'.delivered = [(0, some 2)] := by
  have r0 := Reachable.init demoAddr
  have r1 := r0.step (.create 0) (.create rfl rfl nofun)
  have r2 := r1.step (.insert 0 (fun x => x == 0) (fun x => x == 0)) (.insert rfl (by intro x; simp) (by intro x; simp) demo_insert.1)
  have r3 := r2.step (.poll 0) (.poll rfl rfl)
  have r4 := r3.step (.destroy 0) (.destroy rfl)
  have r5 := r4.step (.create 2) (.create rfl rfl (by intro p hp; by_cases h : p = 0 <;> simp_all))
  have r6 := r5.step (.insert 2 (fun x => x == 2) (fun x => x == 2)) (.insert rfl (by intro x; by_cases h : x = 2 <;> simp_all) (by intro x; simp)
    (m := ⟨(List.replicate 17 none).set 13 (some 2), 2⟩) (by decide +kernel))
  exact ⟨_, _, r6, rfl, rfl, .deliver rfl (r := some 2) (by decide +kernel), rfl⟩

end Verif.Props
