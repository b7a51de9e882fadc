import Verif.Proofs.Redis
/-!
# C42, C47 and C58: Redis values
-/
namespace Verif.Props
open Verif.Redis

/-- C42: a value that a server sends is received with the same structure, at any depth. -/
theorem C42_structure (v : Value) : fetchReply (some v.reply) = some (true, [], v) := by
  rw [fetch_value, value_reply]
  intro s hs
  cases v <;> simp [Value.reply] at hs

/-- C42: every other reply, except a status, is received as the value with the same structure in which everything that is not a value is nil. -/
theorem C42_value (r : Reply) (h : ∀ s, r ≠ .status s) : fetchReply (some r) = some (true, [], r.value) := fetch_value r h

/-- C42: a status is not a value; and nothing is received if there is no reply. -/
theorem C42_status (s : Bytes) : fetchReply (some (.status s)) = some (true, s, .nil) ∧ fetchReply none = some (false, [], .nil) := ⟨rfl, rfl⟩

/-- Non-vacuity: the reply to `EXEC`, which has statuses and nested arrays. -/
example : fetchReply (some (.array [.status (b! "OK"), .integer 3, .array [.string (b! "x"), .array [], .nil], .string (b! "y")])) =
    some (true, [], .array [.nil, .integer 3, .array [.string (b! "x"), .array [], .nil], .string (b! "y")]) := rfl

/-- C47: the printer, which has no recursion, prints what the recursive definition of the format prescribes. -/
theorem C47_redis (quote : Bytes → Bytes) (num : Int → Bytes) (v : Value) (fmt : Bytes) : printTo quote num v fmt = some (fmt ++ v.text quote num) := print_value quote num v fmt

/-- Non-vacuity. -/
example : printTo id (fun _ => b! "7") (.array [.array [], .array [.nil, .string (b! "x")], .integer 7]) [] = some (b! "[[],[nil,\"x\"],7]") ∧
    (Value.array [.array [], .array [.nil, .string (b! "x")], .integer 7]).text id (fun _ => b! "7") = b! "[[],[nil,\"x\"],7]" := ⟨rfl, rfl⟩

/-- C58 (part): the result has exactly the keys that have been reported by the scan and whose values are strings when they are fetched, with these values, and each key once.  The scan
starts with the cursor `0`, goes on with the cursor from each page, and the values are fetched with one command.  (`eraseStable` means that a map does not move other elements
when one is erased, see `C58_relocation`.) -/
theorem C58_map_partial (build : List Bytes → Table) (hb : ∀ ks, Fresh ks (build ks)) (pattern : Bytes) (pages : List (Bytes × List Bytes)) (hp : ∀ p ∈ pages, p.1 ≠ b! "0") (last : List Bytes)
    (db : Bytes → Value) (rest : List (Option Value)) :
    ∃ res cmds, scanAndGet eraseStable build pattern
        (pages.map (fun p => some (page p.1 p.2)) ++ some (page (b! "0") last) :: some (.array ((keys (build ((pages.map Prod.snd).flatten ++ last))).map db)) :: rest) = .ok cmds res ∧
      (∀ k s, some (k, s) ∈ res ↔ ((∃ p ∈ pages, k ∈ p.2) ∨ k ∈ last) ∧ db k = .string s) ∧
      (keys res).Nodup ∧
      ∃ mget, cmds = scanCmds pattern (b! "0") (pages.map Prod.fst ++ [b! "0"]) ++ mget ∧
        (mget = [] ∧ keys (build ((pages.map Prod.snd).flatten ++ last)) = [] ∨ mget = [b! "MGET" :: keys (build ((pages.map Prod.snd).flatten ++ last))]) := by
  obtain ⟨h1, h2, h3⟩ := hb ((pages.map Prod.snd).flatten ++ last)
  have hmem : ∀ k, k ∈ keys (build ((pages.map Prod.snd).flatten ++ last)) ↔ (∃ p ∈ pages, k ∈ p.2) ∨ k ∈ last := by
    intro k
    rw [h2, List.mem_append, List.mem_flatten]
    constructor
    · rintro (⟨l, hl, hk⟩ | h)
      · obtain ⟨p, hp, rfl⟩ := List.mem_map.1 hl; exact .inl ⟨p, hp, hk⟩
      · exact .inr h
    · rintro (⟨p, hp, hk⟩ | h)
      · exact .inl ⟨_, List.mem_map.2 ⟨p, hp, rfl⟩, hk⟩
      · exact .inr h
  unfold scanAndGet
  rw [scan_pages pattern pages last _ _ _ _ hp]
  simp only [List.nil_append]
  generalize build ((pages.map Prod.snd).flatten ++ last) = t at *
  by_cases hk : keys t = []
  · rw [if_pos hk]
    refine ⟨t, _, rfl, fun k s => ?_, h1, [], by simp, .inl ⟨rfl, hk⟩⟩
    rw [← hmem, hk]
    constructor
    · intro h
      have : k ∈ keys t := List.mem_map.2 ⟨(k, s), List.mem_filterMap.2 ⟨_, h, rfl⟩, rfl⟩
      rw [hk] at this; exact nomatch this
    · rintro ⟨h, -⟩; exact nomatch h
  · rw [if_neg hk]
    have e := assign_eq t [] ((keys t).map db)
    simp only [List.nil_append, List.length_nil] at e
    refine ⟨_, _, rfl, fun k s => ?_, ?_, _, rfl, .inr rfl⟩
    · simp only [Value.openArray]
      rw [e, mem_assign, hmem]
    · simp only [Value.openArray]
      rw [e]
      exact (keys_assign t _).nodup h1

/-- A map that keeps the keys in a list. -/
def uniqueKeys (ks : List Bytes) : List Bytes := ks.foldr (fun k acc => if k ∈ acc then acc else k :: acc) []
def listMap (ks : List Bytes) : Table := (uniqueKeys ks).map (fun k => some (k, []))

theorem keys_listMap (ks : List Bytes) : keys (listMap ks) = uniqueKeys ks := by
  unfold listMap
  generalize uniqueKeys ks = l
  induction l with
  | nil => rfl
  | cons k l ih => simp only [List.map_cons]; exact congrArg (k :: ·) ih

theorem uniqueKeys_spec (ks : List Bytes) : (uniqueKeys ks).Nodup ∧ ∀ k, k ∈ uniqueKeys ks ↔ k ∈ ks := by
  induction ks with
  | nil => exact ⟨List.nodup_nil, fun _ => Iff.rfl⟩
  | cons a ks ih =>
    have e : uniqueKeys (a :: ks) = if a ∈ uniqueKeys ks then uniqueKeys ks else a :: uniqueKeys ks := rfl
    rw [e]
    split
    · rename_i h
      refine ⟨ih.1, fun k => ?_⟩
      rw [ih.2, List.mem_cons]
      exact ⟨.inr, fun hk => hk.elim (fun x => x ▸ (ih.2 a).1 h) id⟩
    · rename_i h
      exact ⟨List.nodup_cons.2 ⟨h, ih.1⟩, fun k => by rw [List.mem_cons, List.mem_cons, ih.2]⟩

theorem fresh_listMap (ks : List Bytes) : Fresh ks (listMap ks) := by
  refine ⟨by rw [keys_listMap]; exact (uniqueKeys_spec ks).1, fun k => by rw [keys_listMap]; exact (uniqueKeys_spec ks).2 k, ?_⟩
  unfold listMap
  intro e he
  rw [List.filterMap_map] at he
  obtain ⟨k, _, hk⟩ := List.mem_filterMap.1 he
  simp only [Function.comp_apply, id_eq, Option.some.injEq] at hk
  rw [← hk]

/-- Non-vacuity: two pages, a key that is reported twice, a list, and a key that has been deleted. -/
example : (∀ ks, Fresh ks (listMap ks)) ∧
    ∃ cmds res, scanAndGet eraseStable listMap (b! "*") [some (page (b! "17") [b! "a", b! "b"]), some (page (b! "0") [b! "a", b! "c", b! "d"]),
      some (.array [.nil, .string (b! "1"), .string (b! "3"), .array []])] = .ok cmds res ∧
    res = [none, some (b! "a", b! "1"), some (b! "c", b! "3"), none] ∧
    cmds = [[b! "SCAN", b! "0", b! "MATCH", b! "*"], [b! "SCAN", b! "17", b! "MATCH", b! "*"], [b! "MGET", b! "b", b! "a", b! "c", b! "d"]] := ⟨fresh_listMap, _, _, rfl, rfl, rfl⟩

/-- C58: an error, or a reply that is not an array of two elements, makes the operation fail. -/
theorem C58_failure (er : Table → Nat → Table) (build : List Bytes → Table) (pattern : Bytes) (rest : List (Option Value)) :
    scanAndGet er build pattern (none :: rest) = .threw ∧ scanAndGet er build pattern (some .nil :: rest) = .threw := ⟨rfl, rfl⟩

/-- C58 depends on how the map erases elements.  In a table with linear probing, where erasing an element moves others, one may be moved behind the iterator and then visited
twice.  Here `x` and `y` belong into bucket 2, `z` belongs into bucket 3, and `x` has been put into bucket 0; `y` does not exist any more; and `x` gets the value of `z`. -/
theorem C58_relocation : assign (eraseProbing (fun k => if k = b! "z" then 3 else 2)) [.string (b! "1"), .nil, .string (b! "3")]
    [some (b! "x", []), none, some (b! "y", []), some (b! "z", [])] 0 = [none, none, some (b! "x", b! "3"), some (b! "z", [])] := by decide

/-- If the server sends fewer values than it has been asked for, then the remaining keys get empty values. -/
theorem C58_short : assign eraseStable [.string (b! "1")] [some (b! "a", []), some (b! "b", [])] 0 = [some (b! "a", b! "1"), some (b! "b", [])] := by decide

end Verif.Props
