import Verif.Spec.UdpLink
import Verif.Proofs.EasyQueue
import Verif.Props.Listen
namespace Verif.UdpLink
open Verif.Listen
open Verif.EasyQueue (Sys calls arrivals)

/-- All that has been passed to `do_on_udp_packet()`, whatever became of it. -/
def handed {α : Type} (t : List (EasyQueue.Ev α)) (q : Nat) : List α :=
  match t with
  | [] => []
  | .arrived i x :: t => if i = q then handed t q ++ [x] else handed t q
  | .failed i x :: t => if i = q then handed t q ++ [x] else handed t q
  | .ignored i x :: t => if i = q then handed t q ++ [x] else handed t q
  | _ :: t => handed t q

def pending {α : Type} (s : Sys α) (q : Nat) : List α :=
  match s.net with
  | some (p, x) => if p = q then [x] else []
  | none => []

theorem easy_keep {α : Type} {s s' : Sys α} {a : EasyQueue.Act α} (ha : ∀ p x, a ≠ .packet p x) (h : EasyQueue.step s a = some s') (q : Nat) :
    handed s'.trace q ++ pending s' q = handed s.trace q ++ pending s q := by
  cases a with
  | packet p x => exact absurd rfl (ha p x)
  | push f =>
    simp only [EasyQueue.step] at h
    split at h
    · rename_i p x hn
      unfold EasyQueue.push at h
      split at h
      · cases h
      · cases f <;> (try simp only at h) <;> (try split at h) <;> cases h <;> simp only [handed, pending, hn, List.append_nil] <;> split <;> simp
    · cases h
  | create => simp only [EasyQueue.step] at h; split at h <;> cases h; rfl
  | assign =>
    simp only [EasyQueue.step, EasyQueue.setOwn] at h
    split at h
    · split at h <;> cases h <;> rfl
    · cases h; rfl
    · cases h
  | stop =>
    simp only [EasyQueue.step, EasyQueue.setOwn] at h
    split at h
    · split at h <;> cases h <;> rfl
    · cases h; rfl
    · cases h
  | resume f =>
    simp only [EasyQueue.step] at h
    split at h
    · split at h
      · split at h <;> cases h; rfl
      · cases h
    · cases h
  | enter f =>
    simp only [EasyQueue.step] at h
    split at h
    · split at h
      · split at h
        · split at h <;> cases h <;> rfl
        · cases h
      · cases h
    · cases h
  | pop f =>
    simp only [EasyQueue.step] at h
    split at h
    · split at h
      · split at h
        · unfold EasyQueue.pop at h
          split at h
          · cases h
          · split at h <;> cases h <;> rfl
        · cases h
      · cases h
    · cases h
  | yield f =>
    simp only [EasyQueue.step] at h
    split at h
    · split at h
      · split at h <;> cases h; rfl
      · cases h
    · cases h
  | back f =>
    simp only [EasyQueue.step] at h
    split at h
    · split at h
      · split at h <;> cases h; rfl
      · cases h
    · cases h

theorem easy_packet {α : Type} {s s' : Sys α} {p : Nat} {x : α} (h : EasyQueue.step s (.packet p x) = some s') (q : Nat) :
    handed s'.trace q ++ pending s' q = handed s.trace q ++ pending s q ++ if p = q then [x] else [] := by
  simp only [EasyQueue.step] at h
  split at h
  · rename_i hn
    have hn : s.net = none := by cases he : s.net with | none => rfl | some y => rw [he] at hn; cases hn.1
    split at h
    · cases h
      simp [pending, hn]
    · cases h
      simp only [handed, pending, hn, List.append_nil]
      split <;> simp
  · cases h

theorem arrivals_handed {α : Type} (t : List (EasyQueue.Ev α)) (q : Nat) : (arrivals t q).Sublist (handed t q) := by
  induction t with
  | nil => exact List.Sublist.refl _
  | cons e t ih =>
    cases e with
    | arrived i x => simp only [arrivals, handed]; split; exact ih.append_right _; exact ih
    | failed i x => simp only [arrivals, handed]; split; exact ih.trans (List.sublist_append_left _ _); exact ih
    | ignored i x => simp only [arrivals, handed]; split; exact ih.trans (List.sublist_append_left _ _); exact ih
    | _ => exact ih

theorem arrivals_all {α : Type} {t : List (EasyQueue.Ev α)} {q : Nat} (hf : ∀ x, .failed q x ∉ t) (hi : ∀ x, .ignored q x ∉ t) : arrivals t q = handed t q := by
  induction t with
  | nil => rfl
  | cons e t ih =>
    have ih := ih (fun x h => hf x (.tail _ h)) (fun x h => hi x (.tail _ h))
    cases e with
    | arrived i x => simp only [arrivals, handed, ih]
    | failed i x =>
      simp only [arrivals, handed, ih]
      split
      · rename_i he; subst he; exact absurd (.head _) (hf x)
      · rfl
    | ignored i x =>
      simp only [arrivals, handed, ih]
      split
      · rename_i he; subst he; exact absurd (.head _) (hi x)
      · rfl
    | _ => exact ih

structure Inv (N : Net) (w : World) : Prop where
  easy : ∀ i, EasyQueue.Reachable (w.ends i)
  wire : ∀ src dst data, (src, dst, data) ∈ w.wire → data.length ≤ 65535 ∧ ∃ i q, src = N.name i q ∧ .sent i q (sourceOf dst) data true ∈ w.log
  rx : ∀ i q src data, (src, data) ∈ w.rx i q → data.length ≤ 65535
  from_ : ∀ i q src data, .delivered i q src data ∈ w.log → ∃ dst, (src, dst, data) ∈ w.wire ∧ N.reach dst i q = true
  all : ∀ i q, brought w.log i q = handed (w.ends i).trace q ++ pending (w.ends i) q ++ (w.rx i q).map fun p => (sourceOf p.1, p.2)

theorem inv {N : Net} {w : World} (h : Reachable N w) : Inv N w := by
  induction h with
  | init => exact ⟨fun _ => .init, nofun, nofun, nofun, fun _ _ => rfl⟩
  | @step w w' a _ hs ih =>
    cases a with
    | send i q closing ok to data =>
      simp only [step] at hs
      split at hs
      · rename_i hc
        cases hs
        have hsend := Props.C69_send closing (fun _ d => ok && decide (d.length ≤ 65535)) to hc.2 data
        refine ⟨ih.easy, fun src dst d hm => ?_, ih.rx, fun i' q' src d hm => ?_, fun i' q' => by simpa only [brought] using ih.all i' q'⟩
        · simp only [List.mem_append] at hm
          rcases hm with hm | hm
          · obtain ⟨h1, i', q', h2, h3⟩ := ih.wire _ _ _ hm
            exact ⟨h1, i', q', h2, .tail _ h3⟩
          · simp only [udpSend] at hm hsend ⊢
            split at hm
            · cases hm
            · rename_i hcl
              rw [if_neg hcl] at hsend ⊢
              split at hm
              · rename_i hok
                rw [if_pos hok] at hsend ⊢
                simp only [Option.toList_some, List.map_cons, List.map_nil, List.mem_singleton, Prod.mk.injEq] at hm
                obtain ⟨rfl, rfl, rfl⟩ := hm
                simp only [Bool.and_eq_true, decide_eq_true_eq] at hok
                refine ⟨hok.2, i, q, rfl, ?_⟩
                rw [hsend.2.2.1]
                exact .head _
              · cases hm
        · rcases List.mem_cons.mp hm with hm | hm
          · cases hm
          · obtain ⟨dst, h1, h2⟩ := ih.from_ _ _ _ _ hm
            exact ⟨dst, List.mem_append_left _ h1, h2⟩
      · cases hs
    | deliver i q k =>
      simp only [step] at hs
      split at hs
      · cases hs
      · rename_i src dst data hk
        split at hs
        · rename_i hr
          cases hs
          have hw := List.mem_of_getElem? hk
          refine ⟨ih.easy, fun s d x hm => ?_, fun i' q' s d hm => ?_, fun i' q' s d hm => ?_, fun i' q' => ?_⟩
          · obtain ⟨h1, a, b, h2, h3⟩ := ih.wire _ _ _ hm
            exact ⟨h1, a, b, h2, .tail _ h3⟩
          · simp only [set2] at hm
            split at hm
            · rename_i he
              obtain ⟨rfl, rfl⟩ := he
              rcases List.mem_append.mp hm with hm | hm
              · exact ih.rx _ _ _ _ hm
              · simp only [List.mem_singleton, Prod.mk.injEq] at hm
                obtain ⟨rfl, rfl⟩ := hm
                exact (ih.wire _ _ _ hw).1
            · exact ih.rx _ _ _ _ hm
          · rcases List.mem_cons.mp hm with hm | hm
            · cases hm; exact ⟨dst, hw, hr⟩
            · exact ih.from_ _ _ _ _ hm
          · simp only [brought, set2]
            by_cases he : i = i' ∧ q = q'
            · obtain ⟨rfl, rfl⟩ := he
              simp [ih.all]
            · rw [if_neg he, if_neg (fun h => he ⟨h.1.symm, h.2.symm⟩)]; exact ih.all i' q'
        · cases hs
    | recv i q cap e =>
      simp only [step] at hs
      split at hs
      · cases hs
      · rename_i src data r hrx
        split at hs
        · rename_i hcap
          have hlen : data.length ≤ 65535 := ih.rx i q src data (by rw [hrx]; exact .head _)
          have hcalls : (onPackets (fun _ => cap) (fun _ => e) 0 (w.sock i q) [.packet src data]).calls = [(sourceOf src, data)] :=
            Props.C69_packets _ (fun _ => hcap) _ _ _ _ (by
              intro sa d hm
              simp only [List.mem_singleton, Recv.packet.injEq] at hm
              rw [hm.2]; exact hlen)
          rw [hcalls] at hs
          simp only [handAll] at hs
          split at hs
          · cases hs
          · rename_i s hh
            cases hs
            split at hh
            · cases hh
            · rename_i s2 hstep
              cases hh
              refine ⟨fun j => ?_, ih.wire, fun i' q' a b hm => ?_, ih.from_, fun i' q' => ?_⟩
              · simp only [set1]
                split
                · exact .step (ih.easy i) hstep
                · exact ih.easy j
              · simp only [set2] at hm
                split at hm
                · rename_i he
                  obtain ⟨rfl, rfl⟩ := he
                  exact ih.rx _ _ _ _ (by rw [hrx]; exact .tail _ hm)
                · exact ih.rx _ _ _ _ hm
              · rw [ih.all i' q']
                simp only [set1, set2]
                by_cases hi : i' = i
                · subst hi
                  rw [if_pos rfl, easy_packet hstep q']
                  by_cases hq : q' = q
                  · subst hq; simp [hrx]
                  · rw [if_neg (fun h => hq h.symm), if_neg (fun h => hq h.2), List.append_nil]
                · rw [if_neg hi, if_neg (fun h => hi h.1)]
        · cases hs
    | easy i a =>
      have hs : (∀ p x, a ≠ .packet p x) ∧ ∃ s, EasyQueue.step (w.ends i) a = some s ∧ w' = { w with ends := set1 w.ends i s } := by
        simp only [step] at hs
        split at hs
        · cases hs
        · rename_i hne
          split at hs
          · cases hs
          · rename_i s h1; cases hs; exact ⟨hne, s, h1, rfl⟩
      obtain ⟨hne, s, h1, rfl⟩ := hs
      refine ⟨fun j => ?_, ih.wire, ih.rx, ih.from_, fun i' q' => ?_⟩
      · simp only [set1]
        split
        · exact .step (ih.easy i) h1
        · exact ih.easy j
      · rw [ih.all i' q']
        simp only [set1]
        by_cases hi : i' = i
        · subst hi; rw [if_pos rfl, easy_keep hne h1 q']
        · rw [if_neg hi]

end Verif.UdpLink
