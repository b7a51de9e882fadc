import Verif.Spec.Redis
namespace Verif.Redis

theorem iter_add (m n : Nat) : ∀ s, iter (m + n) s = iter n (iter m s) := by
  induction m with
  | zero => intro s; rw [Nat.zero_add]; rfl
  | succ m ih => intro s; rw [Nat.succ_add]; exact ih (step s)

theorem nodes_pos (r : Reply) : 1 ≤ r.nodes := by cases r <;> simp [Reply.nodes]

mutual
theorem pack_spec : ∀ (r : Reply) (st : List Frame), iter (2 * r.nodes - 1) (.pack r st) = .ret r.value st
  | .nil, st => rfl
  | .integer n, st => rfl
  | .string s, st => rfl
  | .status s, st => rfl
  | .error s, st => rfl
  | .other, st => rfl
  | .array [], st => rfl
  | .array (r :: rs), st => by
    have h := list_spec (r :: rs) r [] [] (r :: rs) st rfl rfl rfl
    have e : 2 * (Reply.array (r :: rs)).nodes - 1 = 1 + 2 * nodesList (r :: rs) := by simp only [Reply.nodes]; omega
    rw [e, iter_add]
    exact h
theorem list_spec : ∀ (rs : List Reply) (r : Reply) (psa : List Value) (pre parent : List Reply) (st : List Frame), parent = pre ++ rs → psa.length = pre.length →
    rs.head? = some r → iter (2 * nodesList rs) (.pack r ({ psa := psa, parent := parent } :: st)) = .ret (.array (psa ++ values rs)) st
  | [], r, psa, pre, parent, st, _, _, h => nomatch h
  | [r'], r, psa, pre, parent, st, hp, hl, h => by
    simp only [List.head?_cons, Option.some.injEq] at h; subst h
    have h1 := pack_spec r' ({ psa := psa, parent := parent } :: st)
    have hn := nodes_pos r'
    have e : 2 * nodesList [r'] = (2 * r'.nodes - 1) + 1 := by simp only [nodesList]; omega
    rw [e, iter_add, h1]
    simp only [iter, step]
    rw [if_neg (by rw [hp]; simp [hl])]
    simp [values]
  | r' :: r2 :: rs, r, psa, pre, parent, st, hp, hl, h => by
    simp only [List.head?_cons, Option.some.injEq] at h; subst h
    have h1 := pack_spec r' ({ psa := psa, parent := parent } :: st)
    have hn := nodes_pos r'
    have e : 2 * nodesList (r' :: r2 :: rs) = (2 * r'.nodes - 1) + (1 + 2 * nodesList (r2 :: rs)) := by rw [nodesList]; omega
    rw [e, iter_add, h1, iter_add]
    have h2 := list_spec (r2 :: rs) r2 (psa ++ [r'.value]) (pre ++ [r']) parent st (by rw [hp]; simp) (by simp [hl]) rfl
    have h3 : iter 1 (.ret r'.value ({ psa := psa, parent := parent } :: st)) = .pack r2 ({ psa := psa ++ [r'.value], parent := parent } :: st) := by
      simp only [iter, step]
      have hlen : (psa ++ [r'.value]).length = pre.length + 1 := by simp [hl]
      have hget : parent[pre.length + 1]? = some r2 := by rw [hp]; simp
      rw [if_pos (by rw [hlen, hp]; simp), hlen, hget]
    rw [h3, h2]
    simp [values]
end

theorem fetch_value (r : Reply) (h : ∀ s, r ≠ .status s) : fetchReply (some r) = some (true, [], r.value) := by
  have h1 := pack_spec r []
  have hn := nodes_pos r
  have e : 2 * r.nodes + 1 = (2 * r.nodes - 1) + 2 := by omega
  have h2 : iter (2 * r.nodes + 1) (.pack r []) = .done r.value := by rw [e, iter_add, h1]; rfl
  cases r with
  | status s => exact absurd rfl (h s)
  | nil => simp only [fetchReply, h2]
  | integer n => simp only [fetchReply, h2]
  | string s => simp only [fetchReply, h2]
  | array rs => simp only [fetchReply, h2]
  | error s => simp only [fetchReply, h2]
  | other => simp only [fetchReply, h2]

mutual
theorem value_reply : ∀ v : Value, v.reply.value = v
  | .nil => rfl
  | .integer n => rfl
  | .string s => rfl
  | .array vs => by rw [Value.reply, Reply.value, values_replies vs]
theorem values_replies : ∀ vs : List Value, values (replies vs) = vs
  | [] => rfl
  | v :: vs => by rw [replies, values, value_reply v, values_replies vs]
end

/-! ## Printing -/

section
variable (quote : Bytes → Bytes) (num : Int → Bytes)

theorem piter_add (m n : Nat) : ∀ s, piter quote num (m + n) s = piter quote num n (piter quote num m s) := by
  induction m with
  | zero => intro s; rw [Nat.zero_add]; rfl
  | succ m ih => intro s; rw [Nat.succ_add]; exact ih (pstep quote num s)

theorem vnodes_pos (v : Value) : 1 ≤ v.nodes := by cases v <;> simp [Value.nodes]

theorem texts_cons2 (v v2 : Value) (vs : List Value) : texts quote num (v :: v2 :: vs) = v.text quote num ++ b! "," ++ texts quote num (v2 :: vs) := by
  rw [texts]; simp

mutual
theorem print_spec : ∀ (v : Value) (st : List PFrame) (fmt : Bytes), piter quote num (2 * v.nodes - 1) (.print v st fmt) = .ret st (fmt ++ v.text quote num)
  | .nil, st, fmt => rfl
  | .integer n, st, fmt => rfl
  | .string s, st, fmt => by
    simp [Value.nodes, piter, pstep, Value.text]; rfl
  | .array [], st, fmt => rfl
  | .array (v :: vs), st, fmt => by
    have h := plist_spec (v :: vs) v (v :: vs) st (fmt ++ [chr '[']) rfl rfl
    have e : 2 * (Value.array (v :: vs)).nodes - 1 = 1 + 2 * vnodesList (v :: vs) := by simp only [Value.nodes]; omega
    rw [e, piter_add]
    refine Eq.trans h ?_
    rw [Value.text]; simp; exact ⟨rfl, rfl⟩
theorem plist_spec : ∀ (vs : List Value) (v : Value) (all : PFrame) (st : List PFrame) (fmt : Bytes), vs.head? = some v → all = vs →
    piter quote num (2 * vnodesList vs) (.print v (all :: st) fmt) = .ret st (fmt ++ texts quote num vs ++ [chr ']'])
  | [], v, all, st, fmt, h, _ => nomatch h
  | [v'], v, all, st, fmt, h, ha => by
    simp only [List.head?_cons, Option.some.injEq] at h; subst h ha
    have h1 := print_spec v' ([v'] :: st) fmt
    have hn := vnodes_pos v'
    have e : 2 * vnodesList [v'] = (2 * v'.nodes - 1) + 1 := by simp only [vnodesList]; omega
    rw [e, piter_add, h1]
    simp [piter, pstep, texts]
  | v' :: v2 :: vs, v, all, st, fmt, h, ha => by
    simp only [List.head?_cons, Option.some.injEq] at h; subst h ha
    have h1 := print_spec v' ((v' :: v2 :: vs) :: st) fmt
    have hn := vnodes_pos v'
    have e : 2 * vnodesList (v' :: v2 :: vs) = (2 * v'.nodes - 1) + (1 + 2 * vnodesList (v2 :: vs)) := by rw [vnodesList]; omega
    rw [e, piter_add, h1, piter_add]
    have h2 := plist_spec (v2 :: vs) v2 (v2 :: vs) st (fmt ++ v'.text quote num ++ [chr ',']) rfl rfl
    refine Eq.trans h2 ?_
    rw [texts_cons2]
    simp; rfl
end

theorem print_value (v : Value) (fmt : Bytes) : printTo quote num v fmt = some (fmt ++ v.text quote num) := by
  have h1 := print_spec quote num v [] fmt
  have hn := vnodes_pos v
  have e : 2 * v.nodes + 1 = (2 * v.nodes - 1) + 2 := by omega
  have h2 : piter quote num (2 * v.nodes + 1) (.print v [] fmt) = .done (fmt ++ v.text quote num) := by rw [e, piter_add, h1]; rfl
  simp only [printTo, h2]

end

/-! ## Scan and get -/

theorem openString_string (ks : List Bytes) : (ks.map Value.string).map Value.openString = ks := by
  induction ks with
  | nil => rfl
  | cons k ks ih => simp only [List.map_cons, Value.openString] at ih ⊢; rw [ih]

theorem scan_page (pattern cursor : Bytes) (c : Bytes) (ks : List Bytes) (rest : List (Option Value)) (cmds : List (List Bytes)) (seen : List Bytes) :
    scan pattern (some (page c ks) :: rest) cursor cmds seen =
    if c ≠ b! "0" then scan pattern rest c (cmds ++ [[b! "SCAN", cursor, b! "MATCH", pattern]]) (seen ++ ks)
    else .keys (cmds ++ [[b! "SCAN", cursor, b! "MATCH", pattern]]) (seen ++ ks) rest := by
  simp only [scan, page, Value.openArray, openString_string]
  rfl

/-- The commands of a scan, when the server gives these cursors. -/
def scanCmds (pattern : Bytes) : Bytes → List Bytes → List (List Bytes)
  | _, [] => []
  | cursor, c :: cs => [b! "SCAN", cursor, b! "MATCH", pattern] :: scanCmds pattern c cs

theorem scan_pages (pattern : Bytes) (pages : List (Bytes × List Bytes)) : ∀ (last : List Bytes) (rest : List (Option Value)) (cursor : Bytes) (cmds : List (List Bytes)) (seen : List Bytes),
    (∀ p ∈ pages, p.1 ≠ b! "0") →
    scan pattern (pages.map (fun p => some (page p.1 p.2)) ++ some (page (b! "0") last) :: rest) cursor cmds seen =
    .keys (cmds ++ scanCmds pattern cursor (pages.map Prod.fst ++ [b! "0"])) (seen ++ (pages.map Prod.snd).flatten ++ last) rest := by
  induction pages with
  | nil =>
    intro last rest cursor cmds seen _
    rw [List.map_nil, List.nil_append, scan_page, if_neg (by simp)]
    simp [scanCmds]
  | cons p ps ih =>
    intro last rest cursor cmds seen h
    rw [List.map_cons, List.cons_append, scan_page, if_pos (h p List.mem_cons_self), ih _ _ _ _ _ (fun q hq => h q (List.mem_cons_of_mem _ hq))]
    simp [scanCmds]

/-- What becomes of an element. -/
def slot (k : Bytes) : Value → Option (Bytes × Bytes)
  | .string s => some (k, s)
  | _ => none

/-- The last loop, by recursion on the table. -/
def assignSpec : Table → List Value → Table
  | [], _ => []
  | none :: t, vs => none :: assignSpec t vs
  | some e :: t, [] => some e :: t
  | some (k, _) :: t, v :: vs => slot k v :: assignSpec t vs

theorem assignSpec_nil : ∀ t : Table, assignSpec t [] = t
  | [] => rfl
  | none :: t => by rw [assignSpec, assignSpec_nil t]
  | some _ :: _ => rfl

theorem drop_pre (pre t : Table) : (pre ++ t).drop pre.length = t := by simp

theorem next_none (pre t : Table) : next (pre ++ none :: t) pre.length = next (pre ++ none :: t) (pre.length + 1) := by
  unfold next
  rw [drop_pre, nextIn]
  have : (pre ++ none :: t).drop (pre.length + 1) = t := by rw [← List.drop_drop, drop_pre]; rfl
  rw [this]

theorem assign_skip (er : Table → Nat → Table) (vs : List Value) (pre t : Table) :
    assign er vs (pre ++ none :: t) pre.length = assign er vs (pre ++ none :: t) (pre.length + 1) := by
  cases vs with
  | nil => rfl
  | cons v vs => simp only [assign, next_none]

theorem assign_eq (t : Table) : ∀ (pre : Table) (vs : List Value), assign eraseStable vs (pre ++ t) pre.length = pre ++ assignSpec t vs := by
  induction t with
  | nil =>
    intro pre vs
    cases vs with
    | nil => rfl
    | cons v vs => simp [assign, next, nextIn, assignSpec]
  | cons o t ih =>
    intro pre vs
    have hnone : ∀ vs, assign eraseStable vs (pre ++ none :: t) pre.length = pre ++ none :: assignSpec t vs := by
      intro vs
      rw [assign_skip]
      have := ih (pre ++ [none]) vs
      simpa using this
    cases o with
    | none => rw [hnone]; rfl
    | some e =>
      obtain ⟨k, w⟩ := e
      cases vs with
      | nil => rw [assignSpec]; rfl
      | cons v vs =>
        have hnx : next (pre ++ some (k, w) :: t) pre.length = some (pre.length, k) := by unfold next; rw [drop_pre, nextIn]
        have hset : ∀ x, (pre ++ some (k, w) :: t).set pre.length x = pre ++ x :: t := by intro x; simp
        rw [assign, hnx]
        cases v with
        | string s =>
          simp only [hset, assignSpec, slot]
          have := ih (pre ++ [some (k, s)]) vs
          simpa using this
        | nil => simp only [eraseStable, hset, assignSpec, slot]; exact hnone vs
        | integer n => simp only [eraseStable, hset, assignSpec, slot]; exact hnone vs
        | array as => simp only [eraseStable, hset, assignSpec, slot]; exact hnone vs

theorem mem_assign (db : Bytes → Value) : ∀ (t : Table) (k s : Bytes), some (k, s) ∈ assignSpec t ((keys t).map db) ↔ k ∈ keys t ∧ db k = .string s
  | [], k, s => by simp [assignSpec, keys]
  | none :: t, k, s => by
    have := mem_assign db t k s
    have e : keys (none :: t) = keys t := rfl
    rw [e, assignSpec, List.mem_cons]
    simp [this]
  | some (k', w) :: t, k, s => by
    have := mem_assign db t k s
    have e : keys (some (k', w) :: t) = k' :: keys t := rfl
    rw [e, List.map_cons, assignSpec, List.mem_cons, this, List.mem_cons]
    cases hv : db k' with
    | string s' =>
      simp only [slot, Option.some.injEq, Prod.mk.injEq]
      constructor
      · rintro (⟨rfl, rfl⟩ | ⟨h1, h2⟩)
        · exact ⟨.inl rfl, hv⟩
        · exact ⟨.inr h1, h2⟩
      · rintro ⟨rfl | h1, h2⟩
        · rw [hv] at h2; injection h2 with h2; exact .inl ⟨rfl, h2.symm⟩
        · exact .inr ⟨h1, h2⟩
    | nil => simp only [slot, reduceCtorEq, false_or]; exact ⟨fun ⟨h1, h2⟩ => ⟨.inr h1, h2⟩, fun ⟨h1, h2⟩ => ⟨h1.resolve_left (fun e => by rw [e, hv] at h2; exact nomatch h2), h2⟩⟩
    | integer n => simp only [slot, reduceCtorEq, false_or]; exact ⟨fun ⟨h1, h2⟩ => ⟨.inr h1, h2⟩, fun ⟨h1, h2⟩ => ⟨h1.resolve_left (fun e => by rw [e, hv] at h2; exact nomatch h2), h2⟩⟩
    | array as => simp only [slot, reduceCtorEq, false_or]; exact ⟨fun ⟨h1, h2⟩ => ⟨.inr h1, h2⟩, fun ⟨h1, h2⟩ => ⟨h1.resolve_left (fun e => by rw [e, hv] at h2; exact nomatch h2), h2⟩⟩

theorem keys_assign : ∀ (t : Table) (vs : List Value), (keys (assignSpec t vs)).Sublist (keys t)
  | [], vs => by rw [assignSpec]; exact List.Sublist.refl _
  | none :: t, vs => by rw [assignSpec]; exact keys_assign t vs
  | some e :: t, [] => by rw [assignSpec]; exact List.Sublist.refl _
  | some (k, w) :: t, v :: vs => by
    have h := keys_assign t vs
    rw [assignSpec]
    cases v with
    | string s => exact List.Sublist.cons_cons k h
    | nil => exact List.Sublist.cons k h
    | integer n => exact List.Sublist.cons k h
    | array as => exact List.Sublist.cons k h

end Verif.Redis
