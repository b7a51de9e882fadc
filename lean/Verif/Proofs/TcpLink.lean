import Verif.Model.TcpLink
import Verif.Proofs.SocketReports
import Verif.Proofs.SocketShut
namespace Verif.TcpLink
open Verif.Socket

theorem step_trace {ssl s x s'} (h : Socket.step ssl s x = some s') : ∃ es, s'.trace = es ++ s.trace := by
  rcases step_cases h with ⟨t, f, rfl, hm, hf⟩ | ⟨t, d, rfl, hm⟩ | ⟨t, f, r, o, hr, hw, hadv⟩ | ⟨fl, -, -, -, rfl⟩ | ⟨fl, n, h0, he, rfl⟩
  · exact ⟨[], rfl⟩
  · exact ⟨[_], rfl⟩
  · exact advance_trace hadv
  · exact ⟨[], rfl⟩
  · exact ⟨[], rfl⟩

theorem fresh_append (es tr : List Ev) : fresh tr (es ++ tr) = es := by
  unfold fresh
  rw [List.length_append, Nat.add_sub_cancel, List.take_left]

/-- What is known about one direction: `tx` and `rx` are the histories of the two ends. -/
structure Way (tx rx : List Ev) (q : Bytes) : Prop where
  /-- what has been received and what is on its way is what has been sent -/
  bytes : receivedBytes rx ++ q = kernelBytes tx
  /-- when the end has been seen, all has been received, and nothing more is sent, unless the receiver had been shut down -/
  over : ∀ d, Ev.stream d true ∈ rx → (q = [] ∧ down tx = true) ∨ ShutFirst rx
  /-- nothing has been sent behind the shutdown -/
  stop : ∀ x y g, tx = x ++ .shutdown g :: y → kernelBytes tx = kernelBytes y
  /-- nothing has been received behind the end, unless the receiver had been shut down -/
  last : ∀ x d y, rx = x ++ .stream d true :: y → receivedBytes rx = receivedBytes y ∨ ShutFirst rx

theorem down_mem {tr : List Ev} : down tr = true ↔ ∃ g, Ev.shutdown g ∈ tr := by
  unfold down
  rw [List.any_eq_true]
  constructor
  · rintro ⟨e, he, h⟩
    split at h
    · exact ⟨_, he⟩
    · cases h
  · rintro ⟨g, h⟩; exact ⟨_, h, rfl⟩

theorem down_append {es tr : List Ev} (h : down tr = true) : down (es ++ tr) = true := by
  rw [down_mem] at *
  obtain ⟨g, h⟩ := h
  exact ⟨g, by simp [h]⟩

theorem _root_.Verif.Socket.ShutFirst.append {tr : List Ev} (es : List Ev) (h : ShutFirst tr) : ShutFirst (es ++ tr) := by
  obtain ⟨x, g, y, rfl, h⟩ := h
  exact ⟨es ++ x, g, y, by rw [List.append_assoc], h⟩

/-- The events of the sender. -/
theorem Way.sender {tx rx : List Ev} {q : Bytes} (h : Way tx rx q) {inq outq : Bytes} {peer : List Ev} {e : Ev} (hf : flow tx peer inq q e = some (inq', outq)) : Way (e :: tx) rx outq := by
  have other : (∀ d, e ≠ .kernel d) → outq = q → Way (e :: tx) rx outq := by
    rintro hne rfl
    have hk : kernelBytes (e :: tx) = kernelBytes tx := by cases e <;> first | rfl | exact absurd rfl (hne _)
    refine ⟨by rw [hk]; exact h.bytes, fun d hd => (h.over d hd).imp_left fun h => ⟨h.1, down_append (es := [_]) h.2⟩, fun x y g hx => ?_, h.last⟩
    rw [hk]
    cases x with
    | nil => cases hx; rfl
    | cons z x => exact h.stop x y g (List.cons.inj hx).2
  cases e with
  | kernel d =>
    simp only [flow] at hf
    split at hf
    · cases hf
    · rename_i hd
      cases hf
      have hs : ∀ g, Ev.shutdown g ∉ tx := fun g hg => hd (down_mem.mpr ⟨g, hg⟩)
      refine ⟨by rw [← List.append_assoc, h.bytes]; rfl, fun d' hd' => .inr ((h.over d' hd').resolve_left fun h => hd h.2), fun x y g hx => ?_, h.last⟩
      cases x with
      | nil => cases hx
      | cons z x =>
        have := (List.cons.inj hx).2
        exact absurd (by rw [this]; simp) (hs g)
  | received d => simp only [flow] at hf; split at hf <;> cases hf; exact other nofun rfl
  | stream d b => cases b <;> simp only [flow] at hf <;> (try split at hf) <;> cases hf <;> exact other nofun rfl
  | _ => cases hf; exact other nofun rfl

/-- The events of the receiver. -/
theorem Way.receiver {tx rx : List Ev} {q : Bytes} (h : Way tx rx q) {q' o o' : Bytes} {e : Ev} (hf : flow rx tx q o e = some (q', o')) : Way tx (e :: rx) q' := by
  have other : (∀ d, e ≠ .received d) → (∀ d, e ≠ .stream d true) → q' = q → Way tx (e :: rx) q' := by
    rintro h1 h2 rfl
    have hk : receivedBytes (e :: rx) = receivedBytes rx := by cases e <;> first | rfl | exact absurd rfl (h1 _)
    refine ⟨by rw [hk]; exact h.bytes, fun d hd => ?_, h.stop, fun x d y hx => ?_⟩
    · rcases List.mem_cons.mp hd with hd | hd
      · exact absurd hd.symm (h2 d)
      · exact (h.over d hd).imp_right (ShutFirst.append [_])
    · cases x with
      | nil => exact absurd (List.cons.inj hx).1 (h2 d)
      | cons z x => rw [hk]; exact (h.last x d y (List.cons.inj hx).2).imp_right (ShutFirst.append [_])
  cases e with
  | kernel d => simp only [flow] at hf; split at hf <;> cases hf; exact other nofun nofun rfl
  | received d =>
    simp only [flow] at hf
    split at hf
    · rename_i hp
      cases hf
      obtain ⟨r, rfl⟩ := List.isPrefixOf_iff_prefix.mp hp
      rw [List.drop_left]
      refine ⟨by rw [← h.bytes]; simp [receivedBytes], fun d' hd' => ?_, h.stop, fun x d' y hx => ?_⟩
      · rcases h.over d' (by simpa using hd') with this | this
        · exact .inl ⟨(List.append_eq_nil_iff.mp this.1).2, this.2⟩
        · exact .inr (this.append [_])
      · cases x with
        | nil => cases hx
        | cons z x =>
          have hx2 := (List.cons.inj hx).2
          rcases h.over d' (by rw [hx2]; simp) with this | this
          · have hd := (List.append_eq_nil_iff.mp this.1).1
            subst hd
            refine (h.last x d' y hx2).imp (fun h => ?_) (ShutFirst.append [_])
            rw [← h]; simp [receivedBytes]
          · exact .inr (this.append [_])
    · cases hf
  | stream d b =>
    cases b with
    | false => cases hf; exact other nofun (by simp) rfl
    | true =>
      simp only [flow] at hf
      split at hf
      · rename_i hp
        cases hf
        refine ⟨h.bytes, fun _ _ => ?_, h.stop, fun x d' y hx => ?_⟩
        · rcases hp with hp | hp
          · by_cases hd : ∃ d, Ev.stream d true ∈ rx
            · obtain ⟨d', hd⟩ := hd
              exact (h.over d' hd).imp_right (ShutFirst.append [_])
            · obtain ⟨g, hg⟩ := down_mem.1 hp
              obtain ⟨x, y, rfl⟩ := List.append_of_mem hg
              exact .inr ⟨_ :: x, g, y, rfl, fun d' hd' => hd ⟨d', by simp [hd']⟩⟩
          · exact .inl hp
        · cases x with
          | nil => cases hx; exact .inl rfl
          | cons z x => exact (h.last x d' y (List.cons.inj hx).2).imp_right (ShutFirst.append [_])
      · cases hf
  | _ => cases hf; exact other nofun nofun rfl

theorem Way.both {tx rx : List Ev} {own : List Ev} {inq outq i o : Bytes} {es : List Ev} (h1 : Way own rx outq) (h2 : Way rx own inq) (hf : flows own rx inq outq es = some (i, o)) :
    Way (es ++ own) rx o ∧ Way rx (es ++ own) i := by
  induction es generalizing i o with
  | nil => cases hf; exact ⟨h1, h2⟩
  | cons e es ih =>
    simp only [flows] at hf
    split at hf
    · cases hf
    · rename_i x y hxy
      obtain ⟨h3, h4⟩ := ih hxy
      exact ⟨h3.sender hf, h4.receiver hf⟩

structure Inv (ssl : Bool) (w : World) : Prop where
  a : Socket.Reachable ssl w.a
  b : Socket.Reachable ssl w.b
  ab : Way w.a.trace w.b.trace w.ab
  ba : Way w.b.trace w.a.trace w.ba

theorem Inv.swap {ssl w} (h : Inv ssl w) : Inv ssl w.swap := ⟨h.b, h.a, h.ba, h.ab⟩

theorem Inv.stepA {ssl w x w'} (h : Inv ssl w) (hs : stepA ssl w x = some w') : Inv ssl w' := by
  unfold TcpLink.stepA at hs
  split at hs
  · cases hs
  · rename_i s he
    split at hs
    · cases hs
    · rename_i i o hf
      cases hs
      obtain ⟨es, ht⟩ := step_trace he
      rw [ht, fresh_append] at hf
      obtain ⟨h1, h2⟩ := h.ab.both (tx := []) h.ba hf
      rw [← ht] at h1 h2
      exact ⟨.step x h.a he, h.b, h1, h2⟩

theorem inv {ssl w} (h : Reachable ssl w) : Inv ssl w := by
  induction h with
  | init n m e f =>
    refine ⟨.init n e, .init m f, ⟨rfl, nofun, fun x y g h => ?_, fun x d y h => ?_⟩, ⟨rfl, nofun, fun x y g h => ?_, fun x d y h => ?_⟩⟩ <;> simp at h
  | @step w w' atB x _ hs ih =>
    unfold TcpLink.step at hs
    split at hs
    · rw [Option.map_eq_some_iff] at hs
      obtain ⟨w1, h1, rfl⟩ := hs
      exact (ih.swap.stepA h1).swap
    · exact ih.stepA hs

end Verif.TcpLink
