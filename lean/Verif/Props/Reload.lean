import Verif.Proofs.Reload
/-! # C99: settings -/
namespace Verif.Props
open Verif.Config (Value)
open Verif.Reload Verif.Spec.Reload

variable {R : Type}

theorem Reload.bind_iff {α β : Type} {o : Option α} {f : α → Option β} {b : β} : (o >>= f) = some b ↔ ∃ a, o = some a ∧ f a = some b := by
  cases o <;> simp

/-- C99.  Settings of Redis connections are those in the file, or the documented defaults; if one of them is not valid, an exception is thrown. -/
theorem C99_redis (root : Root R) (c : Pool) : redis root = some c ↔
    text root [b! "redis", b! "default_service_uri"] (b! "default@localhost:6379/0") = some c.uri ∧ text root [b! "redis", b! "default_password"] [] = some c.password ∧
    number root [b! "redis", b! "connection_pool_size"] 0 100 0 = some c.size ∧ number root [b! "redis", b! "connection_idle_timeout"] 0 86400 60 = some c.idle := by
  have h1 := text_eq root (n := b! "redis") (ns := [b! "default_service_uri"]) (b! "default@localhost:6379/0") (by decide) rfl
  have h2 := text_eq root (n := b! "redis") (ns := [b! "default_password"]) [] (by decide) rfl
  have h3 := number_eq root (n := b! "redis") (ns := [b! "connection_pool_size"]) 0 100 0 (by decide) rfl
  have h4 := number_eq root (n := b! "redis") (ns := [b! "connection_idle_timeout"]) 0 86400 60 (by decide) rfl
  unfold redis
  simp only [Reload.bind_iff, pure, Option.some.injEq]
  constructor
  · rintro ⟨a, ha, b, hb, d, hd, e, he, rfl⟩; exact ⟨h1.symm.trans ha, h2.symm.trans hb, h3.symm.trans hd, h4.symm.trans he⟩
  · rintro ⟨ha, hb, hd, he⟩; exact ⟨_, h1.trans ha, _, h2.trans hb, _, h3.trans hd, _, h4.trans he, rfl⟩

/-- C99.  The same for MongoDB connections -/
theorem C99_mongo (root : Root R) (c : Pool) : mongo root = some c ↔
    text root [b! "mongo", b! "default_service_uri"] (b! "root@localhost:27017/admin") = some c.uri ∧ text root [b! "mongo", b! "default_password"] [] = some c.password ∧
    number root [b! "mongo", b! "connection_pool_size"] 0 100 0 = some c.size ∧ number root [b! "mongo", b! "connection_idle_timeout"] 0 86400 60 = some c.idle := by
  have h1 := text_eq root (n := b! "mongo") (ns := [b! "default_service_uri"]) (b! "root@localhost:27017/admin") (by decide) rfl
  have h2 := text_eq root (n := b! "mongo") (ns := [b! "default_password"]) [] (by decide) rfl
  have h3 := number_eq root (n := b! "mongo") (ns := [b! "connection_pool_size"]) 0 100 0 (by decide) rfl
  have h4 := number_eq root (n := b! "mongo") (ns := [b! "connection_idle_timeout"]) 0 86400 60 (by decide) rfl
  unfold mongo
  simp only [Reload.bind_iff, pure, Option.some.injEq]
  constructor
  · rintro ⟨a, ha, b, hb, d, hd, e, he, rfl⟩; exact ⟨h1.symm.trans ha, h2.symm.trans hb, h3.symm.trans hd, h4.symm.trans he⟩
  · rintro ⟨ha, hb, hd, he⟩; exact ⟨_, h1.trans ha, _, h2.trans hb, _, h3.trans hd, _, h4.trans he, rfl⟩

/-- C99.  The same for MySQL connections; the secondary server defaults to the primary one, and the tertiary server defaults to the secondary one, and so do their passwords. -/
theorem C99_mysql (root : Root R) (c : Pools) : mysql root = some c ↔
    text root [b! "mysql", b! "default_service_uri"] (b! "root@localhost:3306/admin") = some c.uri ∧ text root [b! "mysql", b! "default_password"] [] = some c.password ∧
    text root [b! "mysql", b! "secondary_service_uri"] c.uri = some c.uri2 ∧ text root [b! "mysql", b! "secondary_password"] c.password = some c.password2 ∧
    text root [b! "mysql", b! "tertiary_service_uri"] c.uri2 = some c.uri3 ∧ text root [b! "mysql", b! "tertiary_password"] c.password2 = some c.password3 ∧
    number root [b! "mysql", b! "connection_pool_size"] 0 100 0 = some c.size ∧ number root [b! "mysql", b! "connection_idle_timeout"] 0 86400 60 = some c.idle := by
  have h1 := fun d => text_eq root (n := b! "mysql") (ns := [b! "secondary_service_uri"]) d (by decide) rfl
  have h2 := fun d => text_eq root (n := b! "mysql") (ns := [b! "secondary_password"]) d (by decide) rfl
  have h3 := fun d => text_eq root (n := b! "mysql") (ns := [b! "tertiary_service_uri"]) d (by decide) rfl
  have h4 := fun d => text_eq root (n := b! "mysql") (ns := [b! "tertiary_password"]) d (by decide) rfl
  have h5 := text_eq root (n := b! "mysql") (ns := [b! "default_service_uri"]) (b! "root@localhost:3306/admin") (by decide) rfl
  have h6 := text_eq root (n := b! "mysql") (ns := [b! "default_password"]) [] (by decide) rfl
  have h7 := number_eq root (n := b! "mysql") (ns := [b! "connection_pool_size"]) 0 100 0 (by decide) rfl
  have h8 := number_eq root (n := b! "mysql") (ns := [b! "connection_idle_timeout"]) 0 86400 60 (by decide) rfl
  simp only [dots, List.cons_append, List.nil_append, List.append_nil, chr] at h1 h2 h3 h4 h5 h6 h7 h8
  unfold mysql
  simp only [Reload.bind_iff, pure, Option.some.injEq]
  constructor
  · rintro ⟨a1, e1, a2, e2, a3, e3, a4, e4, a5, e5, a6, e6, a7, e7, a8, e8, rfl⟩
    exact ⟨h5.symm.trans e1, h6.symm.trans e2, (h1 _).symm.trans e3, (h2 _).symm.trans e4, (h3 _).symm.trans e5, (h4 _).symm.trans e6, h7.symm.trans e7, h8.symm.trans e8⟩
  · rintro ⟨e1, e2, e3, e4, e5, e6, e7, e8⟩
    exact ⟨_, h5.trans e1, _, h6.trans e2, _, (h1 _).trans e3, _, (h2 _).trans e4, _, (h3 _).trans e5, _, (h4 _).trans e6, _, h7.trans e7, _, h8.trans e8, rfl⟩

/-- C99.  Settings of fibers: the size of stacks is that in the file, or if there is none or zero, the limit of the system, or if there is none, 16 MiB; a limit is taken modulo 2^32. -/
theorem C99_fibers (limit : Option Nat) (root : Root R) (c : Fibers) : fibers limit root = some c ↔
    (∃ s, number root [b! "fiber", b! "stack_vm_size"] 0 16777216 0 = some s ∧
      c.stack = if s ≠ 0 then s else if ((limit.getD 0 % 2 ^ 32 : Nat) : Int) ≠ 0 then ((limit.getD 0 % 2 ^ 32 : Nat) : Int) else 16777216) ∧
    number root [b! "fiber", b! "warn_timeout"] 0 86400 15 = some c.warn ∧ number root [b! "fiber", b! "fail_timeout"] 0 86400 300 = some c.fail := by
  have h1 := number_eq root (n := b! "fiber") (ns := [b! "stack_vm_size"]) 0 16777216 0 (by decide) rfl
  have h2 := number_eq root (n := b! "fiber") (ns := [b! "warn_timeout"]) 0 86400 15 (by decide) rfl
  have h3 := number_eq root (n := b! "fiber") (ns := [b! "fail_timeout"]) 0 86400 300 (by decide) rfl
  simp only [dots, List.cons_append, List.nil_append, List.append_nil, chr] at h1 h2 h3
  have hs : ∀ s : Int, (if (if s = 0 then (match limit with | some l => ((l % 4294967296 : Nat) : Int) | none => s) else s) = 0 then (16777216 : Int) else (if s = 0 then (match limit with | some l => ((l % 4294967296 : Nat) : Int) | none => s) else s)) =
      if s ≠ 0 then s else if ((limit.getD 0 % 2 ^ 32 : Nat) : Int) ≠ 0 then ((limit.getD 0 % 2 ^ 32 : Nat) : Int) else 16777216 := by
    intro s
    by_cases h : s = 0
    · subst h
      cases limit with
      | none => simp
      | some l =>
        simp only [if_true, Option.getD_some, ne_eq, not_true_eq_false, if_false]
        by_cases h2 : ((l % 4294967296 : Nat) : Int) = 0
        · rw [if_pos h2, if_neg (by simpa using h2)]
        · rw [if_neg h2, if_pos h2]
    · simp [h]
  unfold fibers
  simp only [Reload.bind_iff, pure, Option.some.injEq]
  constructor
  · rintro ⟨a1, e1, a2, e2, a3, e3, rfl⟩
    exact ⟨⟨a1, h1.symm.trans e1, hs a1⟩, h2.symm.trans e2, h3.symm.trans e3⟩
  · rintro ⟨⟨s, e1, hc⟩, e2, e3⟩
    refine ⟨s, h1.trans e1, _, h2.trans e2, _, h3.trans e3, ?_⟩
    cases c
    simp only [Fibers.mk.injEq, and_true]
    exact (hs s).trans hc.symm

/-- C99.  Settings of the network: servers have a certificate if and only if both it and its key are given, can be loaded, and belong together; otherwise, if one of them is given, an exception is
thrown.  Clients verify certificates if and only if authorities are given, which must exist. -/
theorem C99_network (f : Files) (root : Root R) (c : Network) : network f root = some c ↔
    number root [b! "network", b! "poll", b! "event_buffer_size"] 10 1048576 1024 = some c.events ∧ number root [b! "network", b! "poll", b! "throttle_size"] 0 2147483647 1048576 = some c.throttle ∧
    (∃ cert key, text root [b! "network", b! "ssl", b! "default_certificate"] [] = some cert ∧ text root [b! "network", b! "ssl", b! "default_private_key"] [] = some key ∧
      ((cert = [] ∧ key = [] ∧ serverContext c = none) ∨ (cert ≠ [] ∧ key ≠ [] ∧ f.certificate cert = true ∧ f.key key = true ∧ f.pair cert key = true ∧ serverContext c = some (cert, key)))) ∧
    ∃ ca, text root [b! "network", b! "ssl", b! "trusted_ca_path"] [] = some ca ∧ ((ca = [] ∧ c.client = none) ∨ (ca ≠ [] ∧ f.authorities ca = true ∧ c.client = some ca)) := by
  have h1 := number_eq root (n := b! "network") (ns := [b! "poll", b! "event_buffer_size"]) 10 1048576 1024 (by decide) rfl
  have h2 := number_eq root (n := b! "network") (ns := [b! "poll", b! "throttle_size"]) 0 2147483647 1048576 (by decide) rfl
  have h3 := text_eq root (n := b! "network") (ns := [b! "ssl", b! "default_certificate"]) [] (by decide) rfl
  have h4 := text_eq root (n := b! "network") (ns := [b! "ssl", b! "default_private_key"]) [] (by decide) rfl
  have h5 := text_eq root (n := b! "network") (ns := [b! "ssl", b! "trusted_ca_path"]) [] (by decide) rfl
  simp only [dots, List.cons_append, List.nil_append, List.append_nil, chr] at h1 h2 h3 h4 h5
  have hsrv : ∀ cert key x, server f cert key = some x ↔ (cert = [] ∧ key = [] ∧ x = none) ∨ (cert ≠ [] ∧ key ≠ [] ∧ f.certificate cert = true ∧ f.key key = true ∧ f.pair cert key = true ∧ x = some (cert, key)) := by
    intro cert key x
    unfold server
    by_cases hc : cert = [] <;> by_cases hk : key = []
    · simp only [hc, hk, ne_eq, not_true_eq_false, and_true, and_false, false_and, if_false, Option.some.injEq, or_false, true_and]; exact ⟨Eq.symm, Eq.symm⟩
    · simp [hc, hk]
    · simp [hc, hk]
    · simp only [hc, hk, ne_eq, not_false_eq_true, and_false, false_and, if_false, if_true, false_or, true_and]
      split
      · rename_i hb
        simp only [Bool.and_eq_true] at hb
        simp only [hb.1.1, hb.1.2, hb.2, true_and, Option.some.injEq]; exact ⟨Eq.symm, Eq.symm⟩
      · rename_i hb
        simp only [Bool.and_eq_true] at hb
        simp only [reduceCtorEq, false_iff]
        rintro ⟨a, b, d, _⟩; exact hb ⟨⟨a, b⟩, d⟩
  have hcli : ∀ ca x, client f ca = some x ↔ (ca = [] ∧ x = none) ∨ (ca ≠ [] ∧ f.authorities ca = true ∧ x = some ca) := by
    intro ca x
    unfold client
    by_cases hc : ca = []
    · simp only [hc, ne_eq, not_true_eq_false, if_false, Option.some.injEq, true_and, false_and, or_false]; exact ⟨Eq.symm, Eq.symm⟩
    · by_cases hf : f.authorities ca = true
      · simp only [hc, hf, ne_eq, not_false_eq_true, if_true, Option.some.injEq, true_and, false_and, false_or]; exact ⟨Eq.symm, Eq.symm⟩
      · simp [hc, hf]
  unfold network serverContext
  simp only [Reload.bind_iff, pure, Option.some.injEq, hsrv, hcli]
  constructor
  · rintro ⟨a1, e1, a2, e2, cert, e3, key, e4, srv, g1, ca, e5, cl, g2, rfl⟩
    exact ⟨h1.symm.trans e1, h2.symm.trans e2, ⟨cert, key, h3.symm.trans e3, h4.symm.trans e4, g1⟩, ca, h5.symm.trans e5, g2⟩
  · rintro ⟨e1, e2, ⟨cert, key, e3, e4, g1⟩, ca, e5, g2⟩
    exact ⟨_, h1.trans e1, _, h2.trans e2, cert, h3.trans e3, key, h4.trans e4, _, g1, ca, h5.trans e5, _, g2, rfl⟩

/-- C99.  Modules are the strings of the array `modules`, in this order; an exception is thrown if there is none, or it has other values. -/
theorem C99_modules (root : Root R) (hl : ∀ l, entry root [b! "modules"] = .found (.array l) → l.length ≤ 9999990) : modules root = texts root [b! "modules"] none := modules_eq root hl

/-- a name of a level is one that can be a part of a path -/
theorem Reload.level_path {name : Bytes} (h : name ∈ levelNames) (x : Bytes) (hx : isNameB x = true) : ([b! "logger", name, x] : List Bytes).all isNameB = true := by
  have : levelNames.all isNameB = true := by decide
  have h1 := List.all_eq_true.mp this name h
  simp only [List.all_cons, List.all_nil, Bool.and_true, Bool.and_eq_true, hx, h1]
  decide

/-- C99.  Settings of a level of the logger: its color, whether its messages are expendable, and its files, in this order; in verbose mode, if its messages go neither to the standard output nor to the
standard error, they also go to the standard output. -/
theorem C99_level (root : Root R) (verbose : Bool) (name : Bytes) (hn : name ∈ levelNames) (hl : ∀ l, entry root [b! "logger", name, b! "files"] = .found (.array l) → l.length ≤ 9999990) (c : Level) :
    level root verbose name = some c ↔
    text root [b! "logger", name, b! "color"] [] = some c.color ∧ flag root [b! "logger", name, b! "expendable"] false = some c.expendable ∧
    ∃ files, texts root [b! "logger", name, b! "files"] (some []) = some files ∧
      c.files = if verbose = true ∧ b! "/dev/stdout" ∉ files ∧ b! "/dev/stderr" ∉ files then files ++ [b! "/dev/stdout"] else files := by
  have hpath : ∀ x : Bytes, b! "logger." ++ name ++ (chr '.' :: x) = b! "logger" ++ dots [name, x] := by intro x; simp [dots, chr]
  have h1 := text_eq root (n := b! "logger") (ns := [name, b! "color"]) [] (Reload.level_path hn _ (by decide)) (hpath _)
  have h2 := flag_eq root (n := b! "logger") (ns := [name, b! "expendable"]) false (Reload.level_path hn _ (by decide)) (hpath _)
  have h3 := texts_opt_eq root (n := b! "logger") (ns := [name, b! "files"]) (Reload.level_path hn _ (by decide)) (hpath _) hl
  have hf : ∀ files : List Bytes, (if (verbose && !files.any fun f => f == b! "/dev/stdout" || f == b! "/dev/stderr") = true then files ++ [b! "/dev/stdout"] else files) =
      if verbose = true ∧ b! "/dev/stdout" ∉ files ∧ b! "/dev/stderr" ∉ files then files ++ [b! "/dev/stdout"] else files := by
    intro files
    have : (verbose && !files.any fun f => f == b! "/dev/stdout" || f == b! "/dev/stderr") = true ↔ verbose = true ∧ b! "/dev/stdout" ∉ files ∧ b! "/dev/stderr" ∉ files := by
      rw [Bool.and_eq_true, Bool.not_eq_true', List.any_eq_false]
      constructor
      · rintro ⟨hv, h⟩
        exact ⟨hv, fun hm => h _ hm (by simp), fun hm => h _ hm (by simp)⟩
      · rintro ⟨hv, h, h'⟩
        refine ⟨hv, fun x hx hb => ?_⟩
        simp only [Bool.or_eq_true, beq_iff_eq] at hb
        rcases hb with rfl | rfl
        · exact h hx
        · exact h' hx
    by_cases hc : verbose = true ∧ b! "/dev/stdout" ∉ files ∧ b! "/dev/stderr" ∉ files
    · rw [if_pos hc, if_pos (this.mpr hc)]
    · rw [if_neg hc, if_neg (fun h => hc (this.mp h))]
  unfold level
  simp only [Reload.bind_iff, pure, Option.some.injEq]
  constructor
  · rintro ⟨a1, e1, a2, e2, a3, e3, a4, e4, rfl⟩
    refine ⟨h1.symm.trans e1, h2.symm.trans e2, a4, ?_, hf a4⟩
    rw [← h3]
    exact Option.bind_eq_some_iff.mpr ⟨a3, e3, e4⟩
  · rintro ⟨e1, e2, files, e3, hc⟩
    rw [← h3] at e3
    obtain ⟨n, e4, e5⟩ := Option.bind_eq_some_iff.mp e3
    refine ⟨_, h1.trans e1, _, h2.trans e2, n, e4, files, e5, ?_⟩
    cases c
    simp only [Level.mk.injEq, true_and]
    exact (hf files).trans hc.symm

/-- C99.  Whatever files are loaded, one after another, the settings are always those of a single file, the last one that is valid: never those of several files, and never those of an invalid one. -/
theorem C99_whole {C : Type} (read : Root R → Option C) (c : C) (files : List (Root R)) :
    settings read c files = match (files.filterMap read).getLast? with
      | some x => x
      | none => c := by
  induction files generalizing c with
  | nil => rfl
  | cons r rs ih =>
    simp only [settings, reload, List.filterMap_cons]
    cases hr : read r with
    | none => exact ih c
    | some x =>
      rw [ih x]
      simp only [List.getLast?_cons]
      cases (rs.filterMap read).getLast? <;> rfl

/-- C99.  `reload()` returns if and only if the file is valid; otherwise it throws an exception. -/
theorem C99_reported {C : Type} (read : Root R → Option C) (c : C) (file : Root R) : (reload read c file).2 = true ↔ ∃ x, read file = some x := by
  unfold reload
  cases read file <;> simp

/-- A file without entries is valid for the Redis connector, which has defaults, but names no modules. -/
example : (reload redis ⟨[], [], 0, 0⟩ ([] : Root Unit)).2 = true ∧ (reload modules [] ([] : Root Unit)).2 = false := by decide +kernel

/-- C99.  If the settings of the logger are not valid, its levels are kept, and all of them are enabled.  PARTIAL: levels that were not enabled should not be, see `C99_enabled`. -/
theorem C99_logger_partial (l : Logger) (root : Root R) (verbose : Bool) :
    ((logger l root verbose).2 = false ↔ levels root verbose levelNames = none) ∧
    ((logger l root verbose).2 = false → (logger l root verbose).1.levels = l.levels ∧ ∀ k ≤ 15, (logger l root verbose).1.enabled k = true) ∧
    ((logger l root verbose).2 = true → levels root verbose levelNames = some (logger l root verbose).1.levels ∧
      ∀ k ≤ 15, ((logger l root verbose).1.enabled k = true ↔ ∃ x, (logger l root verbose).1.levels[k]? = some x ∧ x.files ≠ [])) := by
  unfold logger
  cases h : levels root verbose levelNames with
  | none => simp [Logger.enabled]
  | some ls =>
    refine ⟨by simp, by simp, fun _ => ⟨rfl, fun k hk => ?_⟩⟩
    simp only [Logger.enabled, Bool.and_eq_true, decide_eq_true_eq, hk, true_and]
    cases ls[k]? with
    | none => simp
    | some x => simp

theorem Reload.levels_spec (root : Root R) (verbose : Bool) (ns : List Bytes) : ∀ ls, levels root verbose ns = some ls ↔ ns.map (level root verbose) = ls.map some := by
  induction ns with
  | nil => intro ls; cases ls <;> simp [levels]
  | cons n ns ih =>
    intro ls
    simp only [levels, List.map_cons]
    cases hn : level root verbose n with
    | none => cases ls <;> simp
    | some l =>
      cases ls with
      | nil => simp
      | cons x xs =>
        simp only [Option.map_eq_some_iff, List.cons.injEq, List.map_cons, Option.some.injEq]
        constructor
        · rintro ⟨r, hr, rfl, rfl⟩; exact ⟨rfl, (ih r).mp hr⟩
        · rintro ⟨rfl, hr⟩; exact ⟨xs, (ih xs).mpr hr, rfl, rfl⟩

/-- C99.  The levels of the logger are fatal errors, errors, warnings, information, debug messages and traces, in this order. -/
theorem C99_levels (root : Root R) (verbose : Bool) (ls : List Level) : levels root verbose levelNames = some ls ↔
    [b! "fatal", b! "error", b! "warn", b! "info", b! "debug", b! "trace"].map (level root verbose) = ls.map some := Reload.levels_spec root verbose _ ls

/-! ### Examples -/

/-- a configuration with most settings -/
def Reload.demo : Root Unit :=
  [(b! "modules", .array [.string (b! "a.so"), .string (b! "b.so")]),
   (b! "redis", .object [(b! "default_password", .string (b! "x")), (b! "connection_pool_size", .integer 7)]),
   (b! "mysql", .object [(b! "secondary_service_uri", .string (b! "u@h")), (b! "tertiary_password", .string (b! "t"))]),
   (b! "network", .object [(b! "poll", .object [(b! "throttle_size", .integer 0)]), (b! "ssl", .object [(b! "default_certificate", .string (b! "c")), (b! "default_private_key", .string (b! "k"))])]),
   (b! "logger", .object [(b! "error", .object [(b! "files", .array [.string (b! "/dev/stderr"), .string (b! "e.log")])]), (b! "info", .object [(b! "expendable", .boolean true), (b! "files", .array [.string (b! "i.log")])])])]

example : redis Reload.demo = some ⟨b! "default@localhost:6379/0", b! "x", 7, 60⟩ := by decide +kernel
example : mysql Reload.demo = some ⟨b! "root@localhost:3306/admin", [], b! "u@h", [], b! "u@h", b! "t", 0, 60⟩ := by decide +kernel
example : network ⟨fun _ => true, fun _ => true, fun _ _ => true, fun _ => true⟩ Reload.demo = some ⟨1024, 0, some (b! "c", b! "k"), none⟩ := by decide +kernel
example : network ⟨fun _ => true, fun _ => true, fun _ _ => false, fun _ => true⟩ Reload.demo = none := by decide +kernel
example : modules Reload.demo = some [b! "a.so", b! "b.so"] := by decide +kernel
example : level Reload.demo true (b! "error") = some ⟨[], false, [b! "/dev/stderr", b! "e.log"]⟩ := by decide +kernel
example : level Reload.demo true (b! "info") = some ⟨[], true, [b! "i.log", b! "/dev/stdout"]⟩ := by decide +kernel
example : redis [(b! "redis", (.object [(b! "connection_pool_size", .integer 101)] : Value Unit))] = none := by decide +kernel
example : redis [(b! "redis", (.integer 1 : Value Unit))] = none := by decide +kernel

/-- With an unlimited stack, each fiber gets 4 GiB. -/
example : fibers (some (2 ^ 64 - 1)) Reload.demo = some ⟨4294967295, 15, 300⟩ := by decide +kernel
example : fibers (some 8388608) [(b! "fiber", (.object [(b! "stack_vm_size", .integer 65536), (b! "fail_timeout", .integer 0)] : Value Unit))] = some ⟨65536, 15, 0⟩ := by decide +kernel

/-- C99, the full property fails for the logger: after a file has been rejected, a level that has no file is reported to be enabled. -/
theorem C99_enabled : ∃ (l : Logger) (root : Root Unit), (logger l Reload.demo false).2 = true ∧ (logger l Reload.demo false).1.enabled 4 = false ∧
    (logger (logger l Reload.demo false).1 root false).2 = false ∧ (logger (logger l Reload.demo false).1 root false).1.enabled 4 = true :=
  ⟨{}, [(b! "logger", .integer 1)], by decide +kernel⟩

/-- Of three files, the second is not valid. -/
example : settings redis ⟨[], [], 0, 0⟩ [Reload.demo, [(b! "redis", (.integer 1 : Value Unit))]] = ⟨b! "default@localhost:6379/0", b! "x", 7, 60⟩ := by decide +kernel

end Verif.Props
