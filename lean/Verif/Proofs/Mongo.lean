import Verif.Spec.Mongo
namespace Verif.Mongo

/-! ## Packing -/

section
variable (ok : Bytes → Bool)

theorem iter_add (m n : Nat) : ∀ s, iter ok (m + n) s = iter ok n (iter ok m s) := by
  induction m with
  | zero => intro s; rw [Nat.zero_add]; rfl
  | succ m ih => intro s; rw [Nat.succ_add]; exact ih (step ok s)

theorem iter_failed (n : Nat) : iter ok n .failed = .failed := by
  induction n with
  | zero => rfl
  | succ n ih => exact ih

theorem steps_pos (v : Value) : 1 ≤ v.steps := by cases v <;> simp [Value.steps] <;> omega

theorem append_scalar {v : Value} {b : Bson} (key : Bytes) (cur : Cur) (temp : List (Bytes × Bson)) (stack : List Frame) (hs : scalar v = some b) (ha : v.steps = 1) :
    append ok key cur temp stack v = if ok key then .run cur (temp ++ [(key, b)]) stack else .failed := by
  cases v <;> simp only [append, hs] <;> simp [Value.steps] at ha <;> omega

mutual
theorem append_spec : ∀ (v : Value) (key : Bytes) (cur : Cur) (temp : List (Bytes × Bson)) (stack : List Frame),
    iter ok (v.steps - 1) (append ok key cur temp stack v) = if ok key && v.packable ok then .run cur (temp ++ [(key, v.bson)]) stack else .failed
  | .null, key, cur, temp, stack => by simp [Value.steps, iter, append, scalar, Value.packable, Value.bson]
  | .boolean b, key, cur, temp, stack => by simp [Value.steps, iter, append, scalar, Value.packable, Value.bson]
  | .integer n, key, cur, temp, stack => by simp [Value.steps, iter, append, scalar, Value.packable, Value.bson]
  | .double d, key, cur, temp, stack => by simp [Value.steps, iter, append, scalar, Value.packable, Value.bson]
  | .utf8 s, key, cur, temp, stack => by
    by_cases h : s.length ≤ 2147483647 <;> simp [Value.steps, iter, append, scalar, Value.packable, Value.bson, h]
  | .binary s, key, cur, temp, stack => by
    by_cases h : s.length ≤ 4294967295 <;> simp [Value.steps, iter, append, scalar, Value.packable, Value.bson, h]
  | .oid s, key, cur, temp, stack => by simp [Value.steps, iter, append, scalar, Value.packable, Value.bson]
  | .datetime ns, key, cur, temp, stack => by simp [Value.steps, iter, append, scalar, Value.packable, Value.bson, toMillis]
  | .array vs, key, cur, temp, stack => by
    have h := arr_spec vs 0 vs.length [] ({ cur := cur, isArray := true, key := key, temp := temp } :: stack) (by omega)
    have e : (Value.array vs).steps - 1 = stepsArr vs + 1 := by simp only [Value.steps]; omega
    rw [e, append]
    cases hk : ok key
    · simp [iter_failed]
    · rw [if_pos rfl, iter_add, h]
      simp only [Value.packable, Bool.true_and]
      split
      · simp [iter, step, close, Value.bson]
      · exact iter_failed ok _
  | .document fs, key, cur, temp, stack => by
    have h := doc_spec fs [] ({ cur := cur, isArray := false, key := key, temp := temp } :: stack)
    have e : (Value.document fs).steps - 1 = stepsDoc fs + 1 := by simp only [Value.steps]; omega
    rw [e, append]
    cases hk : ok key
    · simp [iter_failed]
    · rw [if_pos rfl, iter_add, h]
      simp only [Value.packable, Bool.true_and]
      split
      · simp [iter, step, close, Value.bson]
      · exact iter_failed ok _
theorem arr_spec : ∀ (vs : List Value) (i size : Nat) (temp : List (Bytes × Bson)) (stack : List Frame), size = i + vs.length →
    iter ok (stepsArr vs) (.run (.arr size vs) temp stack) = if packableArr ok i vs then .run (.arr size []) (temp ++ numbered i vs) stack else .failed
  | [], i, size, temp, stack, _ => by simp [stepsArr, iter, packableArr, numbered]
  | v :: vs, i, size, temp, stack, hs => by
    have hp := steps_pos v
    have e : stepsArr (v :: vs) = 1 + ((v.steps - 1) + stepsArr vs) := by simp only [stepsArr]; omega
    have hi : size - (vs.length + 1) = i := by rw [hs, List.length_cons]; omega
    have h1 : iter ok 1 (.run (.arr size (v :: vs)) temp stack) = append ok (subscript i) (.arr size vs) temp stack v := by
      simp only [iter, step, hi]; rfl
    rw [e, iter_add, h1, iter_add, append_spec v]
    rw [show packableArr ok i (v :: vs) = (ok (subscript i) && v.packable ok && packableArr ok (i + 1) vs) by rw [packableArr]]
    by_cases hk : (ok (subscript i) && v.packable ok) = true
    rotate_left
    · rw [if_neg hk, if_neg (fun h => hk (Bool.and_eq_true_iff.1 h).1), iter_failed]
    · simp only [hk, if_true, Bool.true_and]
      rw [arr_spec vs (i + 1) size _ stack (by rw [hs, List.length_cons]; omega)]
      simp [numbered]
theorem doc_spec : ∀ (fs : List (Bytes × Value)) (temp : List (Bytes × Bson)) (stack : List Frame),
    iter ok (stepsDoc fs) (.run (.doc fs) temp stack) = if packableDoc ok fs then .run (.doc []) (temp ++ bsonDoc fs) stack else .failed
  | [], temp, stack => by simp [stepsDoc, iter, packableDoc, bsonDoc]
  | (k, v) :: fs, temp, stack => by
    have hp := steps_pos v
    have e : stepsDoc ((k, v) :: fs) = 1 + ((v.steps - 1) + stepsDoc fs) := by simp only [stepsDoc]; omega
    have h1 : iter ok 1 (.run (.doc ((k, v) :: fs)) temp stack) = append ok k (.doc fs) temp stack v := rfl
    rw [e, iter_add, h1, iter_add, append_spec v]
    rw [show packableDoc ok ((k, v) :: fs) = (ok k && v.packable ok && packableDoc ok fs) by rw [packableDoc]]
    by_cases hk : (ok k && v.packable ok) = true
    rotate_left
    · rw [if_neg hk, if_neg (fun h => hk (Bool.and_eq_true_iff.1 h).1), iter_failed]
    · simp only [hk, if_true, Bool.true_and]
      rw [doc_spec fs]
      simp [bsonDoc]
end

theorem execute_eq (valid : List (Bytes × Bson) → Bool) (cmd : List (Bytes × Value)) :
    execute ok valid cmd = if packableDoc ok cmd && valid (bsonDoc cmd) then some (bsonDoc cmd) else none := by
  have h := doc_spec ok cmd [] []
  unfold execute
  rw [iter_add, h]
  cases hp : packableDoc ok cmd
  · simp [iter_failed]
  · simp [iter, step, close]

end

/-! ## Unpacking -/

theorem uiter_add (m n : Nat) : ∀ s, uiter (m + n) s = uiter n (uiter m s) := by
  induction m with
  | zero => intro s; rw [Nat.zero_add]; rfl
  | succ m ih => intro s; rw [Nat.succ_add]; exact ih (ustep s)

theorem uiter_done (n : Nat) (v : Value) : uiter n (.done v) = .done v := by
  induction n with
  | zero => rfl
  | succ n ih => exact ih

/-- Adds elements to a container. -/
def Value.pushAll (xs : List (Bytes × Value)) : Value → Option Value
  | .array vs => some (.array (vs ++ xs.map Prod.snd))
  | .document fs => some (.document (fs ++ xs))
  | _ => none

theorem push_eq (k : Bytes) (v : Value) : Value.push k v = Value.pushAll [(k, v)] := by
  funext x; cases x <;> rfl

theorem pushAll_nil (v : Value) (h : (v.pushAll []).isSome) : v.pushAll [] = some v := by
  cases v <;> simp [Value.pushAll] at h ⊢

theorem pushAll_comp (xs ys : List (Bytes × Value)) (v : Value) : (v.pushAll xs).bind (Value.pushAll ys) = v.pushAll (xs ++ ys) := by
  cases v <;> simp [Value.pushAll]

theorem last_comp (f g : Value → Option Value) (v : Value) : (v.last f).bind (Value.last g) = v.last (fun x => (f x).bind g) := by
  cases v with
  | array vs =>
    simp only [Value.last]
    cases vs.getLast? with
    | none => rfl
    | some x => cases hf : f x with
      | none => simp [hf]
      | some y => simp [hf, Value.last]
  | document fs =>
    simp only [Value.last]
    cases fs.getLast? with
    | none => rfl
    | some x => cases hf : f x.2 with
      | none => simp [hf]
      | some y => simp [hf, Value.last]
  | _ => rfl

theorem at_comp (f g : Value → Option Value) (d : Nat) : ∀ v : Value, (v.at f d).bind (Value.at g d) = v.at (fun x => (f x).bind g) d := by
  induction d with
  | zero => intro v; rfl
  | succ d ih =>
    intro v
    simp only [Value.at]
    refine (last_comp (Value.at f d) (Value.at g d) v).trans ?_
    congr 1
    funext x
    exact ih x

theorem at_succ (f : Value → Option Value) (d : Nat) : ∀ v : Value, v.at f (d + 1) = v.at (Value.last f) d := by
  induction d with
  | zero => intro v; rfl
  | succ d ih =>
    intro v
    rw [Value.at, Value.at]
    congr 1
    funext x
    exact ih x

theorem push_last (k : Bytes) (c : Value) (f : Value → Option Value) (x : Value) : (Value.push k c x).bind (Value.last f) = (f c).bind (fun c' => Value.push k c' x) := by
  cases x with
  | array vs => cases h : f c <;> simp [Value.push, Value.last, h]
  | document fs => cases h : f c <;> simp [Value.push, Value.last, h]
  | _ => cases f c <;> rfl

theorem at_isSome_mono (f g : Value → Option Value) (h : ∀ x, (f x).isSome → (g x).isSome) (d : Nat) : ∀ v : Value, (v.at f d).isSome → (v.at g d).isSome := by
  induction d with
  | zero => intro v; exact h v
  | succ d ih =>
    intro v hv
    simp only [Value.at] at hv ⊢
    cases v with
    | array vs =>
      simp only [Value.last] at hv ⊢
      cases hl : vs.getLast? with
      | none => rw [hl] at hv; exact nomatch hv
      | some x => rw [hl] at hv; simp only [Option.isSome_map] at hv ⊢; exact ih x hv
    | document fs =>
      simp only [Value.last] at hv ⊢
      cases hl : fs.getLast? with
      | none => rw [hl] at hv; exact nomatch hv
      | some x => rw [hl] at hv; simp only [Option.isSome_map] at hv ⊢; exact ih x.2 hv
    | _ => exact nomatch hv

theorem pushAll_isSome (xs ys : List (Bytes × Value)) (v : Value) : (v.pushAll xs).isSome → (v.pushAll ys).isSome := by
  cases v <;> simp [Value.pushAll]

/-- A container with these elements. -/
def wrap : Bson → List (Bytes × Value) → Value
  | .array _, xs => .array (xs.map Prod.snd)
  | .document _, xs => .document xs
  | _, _ => .null

mutual
/-- There is no date-time out of range. -/
def Bson.fits : Bson → Prop
  | .datetime ms => -9223372036854775808 ≤ ms * 1000000 ∧ ms * 1000000 ≤ 9223372036854775807
  | .array fs => fitsList fs
  | .document fs => fitsList fs
  | _ => True
def fitsList : List (Bytes × Bson) → Prop
  | [] => True
  | (_, b) :: fs => b.fits ∧ fitsList fs
end

mutual
/-- What is really made of the elements of a container: what follows a container that is not empty goes into that container. -/
def build : List (Bytes × Bson) → List (Bytes × Value)
  | [] => []
  | (k, b) :: rest => buildOne k b (build rest)
def buildOne (k : Bytes) : Bson → List (Bytes × Value) → List (Bytes × Value)
  | .array [], rest => (k, .array []) :: rest
  | .array (f :: fs), rest => [(k, .array ((build (f :: fs) ++ rest).map Prod.snd))]
  | .document [], rest => (k, .document []) :: rest
  | .document (f :: fs), rest => [(k, .document (build (f :: fs) ++ rest))]
  | b, rest => (k, (unscalar b).getD .null) :: rest
end

/-- The list of elements has been processed, beginning with a state. -/
def Runs (es : List (Bytes × Bson)) : Prop := ∀ (out : Value) (top : Nat) (st : List UFrame), (out.at (Value.pushAll []) top).isSome →
  ∃ n top' out', n ≤ bstepsList es ∧ uiter n (.run out top es st) = .run out' top' [] st ∧ out.at (Value.pushAll (build es)) top = some out'

theorem bsteps_pos (b : Bson) : 1 ≤ b.steps := by cases b <;> simp [Bson.steps] <;> omega

theorem at_push_ok {out : Value} {top : Nat} (h : (out.at (Value.pushAll []) top).isSome) (xs : List (Bytes × Value)) : ∃ out', out.at (Value.pushAll xs) top = some out' :=
  Option.isSome_iff_exists.1 (at_isSome_mono _ _ (fun v => pushAll_isSome [] xs v) top out h)

theorem at_container {out out1 : Value} {top : Nat} {xs : List (Bytes × Value)} (h : out.at (Value.pushAll xs) top = some out1) : (out1.at (Value.pushAll []) top).isSome := by
  have := at_comp (Value.pushAll xs) (Value.pushAll []) top out
  rw [h] at this
  simp only [Option.bind_some] at this
  rw [this]
  refine at_isSome_mono (Value.pushAll xs) _ (fun v hv => ?_) top out (by rw [h]; rfl)
  rw [pushAll_comp]; exact pushAll_isSome _ _ v hv

/-- An element that is not a container, or is an empty one. -/
theorem runs_leaf {k : Bytes} {b : Bson} {rest : List (Bytes × Bson)} {v : Value} (hv : unscalar b = some v) (hf : b.fields = []) (hb : ∀ xs, buildOne k b xs = (k, v) :: xs)
    (hr : Runs rest) : Runs ((k, b) :: rest) := by
  intro out top st htop
  obtain ⟨out1, h1⟩ := at_push_ok htop [(k, v)]
  obtain ⟨n, top', out', hn, hrun, hout⟩ := hr out1 top st (at_container h1)
  refine ⟨1 + n, top', out', ?_, ?_, ?_⟩
  · have := bsteps_pos b; simp only [bstepsList]; omega
  · rw [uiter_add]
    have : uiter 1 (.run out top ((k, b) :: rest) st) = .run out1 top rest st := by
      simp only [uiter, ustep, hv, push_eq, h1, hf]
    rw [this]; exact hrun
  · rw [build, hb]
    have := at_comp (Value.pushAll [(k, v)]) (Value.pushAll (build rest)) top out
    rw [h1] at this
    simp only [Option.bind_some, pushAll_comp] at this
    rw [hout] at this
    exact this.symm

/-- A container that is not empty. -/
theorem runs_container {k : Bytes} {b : Bson} {e : Bytes × Bson} {es rest : List (Bytes × Bson)} (hb : b = .array (e :: es) ∨ b = .document (e :: es))
    (he : Runs (e :: es)) (hr : Runs rest) : Runs ((k, b) :: rest) := by
  intro out top st htop
  have hunscalar : ∃ c, unscalar b = some c ∧ (c = .array [] ∨ c = .document []) ∧ c.pushAll (build (e :: es) ++ build rest) = some (wrap b (build (e :: es) ++ build rest)) ∧
      build ((k, b) :: rest) = [(k, wrap b (build (e :: es) ++ build rest))] ∧ b.fields = e :: es ∧ b.steps = 2 + bstepsList (e :: es) := by
    rcases hb with rfl | rfl
    · exact ⟨.array [], rfl, .inl rfl, by simp [Value.pushAll, wrap], by rw [build, buildOne]; rfl, rfl, by rw [Bson.steps]⟩
    · exact ⟨.document [], rfl, .inr rfl, by simp [Value.pushAll, wrap], by rw [build, buildOne]; rfl, rfl, by rw [Bson.steps]⟩
  obtain ⟨c, hc1, hc2, hc3, hc4, hc5, hc6⟩ := hunscalar
  obtain ⟨out1, h1⟩ := at_push_ok htop [(k, c)]
  have hcomp : ∀ f, out1.at f (top + 1) = out.at (fun x => (f c).bind (fun c' => Value.push k c' x)) top := by
    intro f
    have := at_comp (Value.pushAll [(k, c)]) (Value.last f) top out
    rw [h1] at this
    simp only [Option.bind_some] at this
    rw [at_succ, this]
    congr 1
    funext x
    rw [← push_eq]; exact push_last k c f x
  have hgood : (out1.at (Value.pushAll []) (top + 1)).isSome := by
    rw [hcomp]
    refine at_isSome_mono (Value.pushAll []) _ (fun x hx => ?_) top out htop
    rcases hc2 with rfl | rfl
    · simp only [Value.pushAll, Option.bind_some, push_eq]; exact pushAll_isSome _ _ x hx
    · simp only [Value.pushAll, Option.bind_some, push_eq]; exact pushAll_isSome _ _ x hx
  obtain ⟨n1, t1, out2, hn1, hrun1, hout1⟩ := he out1 (top + 1) ({ parent := top + 1, iter := rest } :: st) hgood
  obtain ⟨n2, t2, out3, hn2, hrun2, hout2⟩ := hr out2 (top + 1) st (at_container hout1)
  refine ⟨1 + (n1 + (1 + n2)), t2, out3, ?_, ?_, ?_⟩
  · simp only [bstepsList, hc6]; simp only [bstepsList] at hn1; omega
  · have s1 : uiter 1 (.run out top ((k, b) :: rest) st) = .run out1 (top + 1) (e :: es) ({ parent := top + 1, iter := rest } :: st) := by
      simp only [uiter, ustep, hc1, push_eq, h1, hc5]
    rw [uiter_add, s1, uiter_add, hrun1, uiter_add]
    exact hrun2
  · have h12 := at_comp (Value.pushAll (build (e :: es))) (Value.pushAll (build rest)) (top + 1) out1
    rw [hout1] at h12
    simp only [Option.bind_some, pushAll_comp] at h12
    rw [hout2, hcomp] at h12
    rw [hc4, ← push_eq, h12]
    congr 1
    funext x
    rw [hc3]; rfl

mutual
theorem runs_one : ∀ (k : Bytes) (b : Bson) (rest : List (Bytes × Bson)), b.fits → Runs rest → Runs ((k, b) :: rest)
  | k, .null, rest, _, hr => runs_leaf rfl rfl (fun _ => rfl) hr
  | k, .bool _, rest, _, hr => runs_leaf rfl rfl (fun _ => rfl) hr
  | k, .int32 _, rest, _, hr => runs_leaf rfl rfl (fun _ => rfl) hr
  | k, .int64 _, rest, _, hr => runs_leaf rfl rfl (fun _ => rfl) hr
  | k, .double _, rest, _, hr => runs_leaf rfl rfl (fun _ => rfl) hr
  | k, .utf8 _, rest, _, hr => runs_leaf rfl rfl (fun _ => rfl) hr
  | k, .binary _, rest, _, hr => runs_leaf rfl rfl (fun _ => rfl) hr
  | k, .oid _, rest, _, hr => runs_leaf rfl rfl (fun _ => rfl) hr
  | k, .datetime ms, rest, h, hr => by
    have : unscalar (.datetime ms) = some (.datetime (ms * 1000000)) := if_pos h
    exact runs_leaf this rfl (fun xs => by rw [buildOne, this]; rfl; all_goals intros; contradiction) hr
  | k, .other _, rest, _, hr => runs_leaf rfl rfl (fun _ => rfl) hr
  | k, .array [], rest, _, hr => runs_leaf rfl rfl (fun _ => rfl) hr
  | k, .document [], rest, _, hr => runs_leaf rfl rfl (fun _ => rfl) hr
  | k, .array (e :: es), rest, h, hr => runs_container (.inl rfl) (runs_all (e :: es) h) hr
  | k, .document (e :: es), rest, h, hr => runs_container (.inr rfl) (runs_all (e :: es) h) hr
theorem runs_all : ∀ (es : List (Bytes × Bson)), fitsList es → Runs es
  | [], _ => fun out top st h => by
    obtain ⟨out', ho⟩ := at_push_ok h []
    have : out.at (Value.pushAll []) top = some out := by
      have key : ∀ d (v : Value), (v.at (Value.pushAll []) d).isSome → v.at (Value.pushAll []) d = some v := by
        intro d
        induction d with
        | zero => intro v hv; exact pushAll_nil v hv
        | succ d ih =>
          intro v hv
          simp only [Value.at] at hv ⊢
          cases v with
          | array vs =>
            simp only [Value.last] at hv ⊢
            cases hl : vs.getLast? with
            | none => rw [hl] at hv; exact nomatch hv
            | some x =>
              rw [hl] at hv
              simp only [Option.isSome_map] at hv
              simp only [ih x hv, Option.map_some]
              have hne : vs ≠ [] := fun e => by rw [e] at hl; exact nomatch hl
              have hx : vs.getLast hne = x := by rw [List.getLast?_eq_some_getLast hne] at hl; injection hl
              rw [← hx, List.dropLast_concat_getLast]
          | document vs =>
            simp only [Value.last] at hv ⊢
            cases hl : vs.getLast? with
            | none => rw [hl] at hv; exact nomatch hv
            | some x =>
              rw [hl] at hv
              simp only [Option.isSome_map] at hv
              simp only [ih x.2 hv, Option.map_some]
              have hne : vs ≠ [] := fun e => by rw [e] at hl; exact nomatch hl
              have hx : vs.getLast hne = x := by rw [List.getLast?_eq_some_getLast hne] at hl; injection hl
              have hx' : (x.1, x.2) = x := rfl
              rw [← hx, List.dropLast_concat_getLast]
          | _ => exact nomatch hv
      exact key top out h
    exact ⟨0, top, out, Nat.zero_le _, rfl, this⟩
  | (k, b) :: rest, h => runs_one k b rest h.1 (runs_all rest h.2)
end

theorem unpack_eq (es : List (Bytes × Bson)) (h : fitsList es) : unpack es = some (build es) := by
  obtain ⟨n, top', out', hn, hrun, hout⟩ := runs_all es h (.document []) 0 [] rfl
  simp only [Value.at, Value.pushAll, List.nil_append, Option.some.injEq] at hout
  subst hout
  unfold unpack
  have e : bstepsList es + 1 = n + (1 + (bstepsList es - n)) := by omega
  rw [e, uiter_add, hrun, uiter_add]
  have : uiter 1 (.run (.document (build es)) top' [] []) = .done (.document (build es)) := rfl
  rw [this, uiter_done]

mutual
theorem fits_bson : ∀ v : Value, v.inRange → v.bson.fits
  | .null, _ => trivial
  | .boolean _, _ => trivial
  | .integer n, _ => by rw [Value.bson]; split <;> trivial
  | .double _, _ => trivial
  | .utf8 _, _ => trivial
  | .binary _, _ => trivial
  | .oid _, _ => trivial
  | .datetime ns, h => by
    have h' : -9223372036854775808 ≤ ns ∧ ns ≤ 9223372036854775807 := h
    rw [Value.bson, Bson.fits, Int.tdiv_eq_ediv]
    have hs : (1000000 : Int).sign = 1 := rfl
    rw [hs]
    split <;> omega
  | .array vs, h => by rw [Value.bson, Bson.fits]; exact fits_arr vs 0 h
  | .document fs, h => by rw [Value.bson, Bson.fits]; exact fits_doc fs h
theorem fits_arr : ∀ (vs : List Value) (i : Nat), inRangeArr vs → fitsList (numbered i vs)
  | [], _, _ => trivial
  | v :: vs, i, h => by rw [numbered]; exact ⟨fits_bson v h.1, fits_arr vs (i + 1) h.2⟩
theorem fits_doc : ∀ fs : List (Bytes × Value), inRangeDoc fs → fitsList (bsonDoc fs)
  | [], _ => trivial
  | (k, v) :: fs, h => by rw [bsonDoc]; exact ⟨fits_bson v h.1, fits_doc fs h.2⟩
end

mutual
theorem build_one : ∀ (v : Value) (k : Bytes) (rest : List (Bytes × Value)), v.inRange → v.tidy → (rest = [] ∨ v.filled = false) → buildOne k v.bson rest = (k, v.truncate) :: rest
  | .null, k, rest, _, _, _ => rfl
  | .boolean _, k, rest, _, _, _ => rfl
  | .integer n, k, rest, _, _, _ => by rw [Value.bson]; split <;> rfl
  | .double _, k, rest, _, _, _ => rfl
  | .utf8 _, k, rest, _, _, _ => rfl
  | .binary _, k, rest, _, _, _ => rfl
  | .oid _, k, rest, _, _, _ => rfl
  | .datetime ns, k, rest, h, _, _ => by
    have hf := fits_bson (.datetime ns) h
    have : unscalar (.datetime (ns.tdiv 1000000)) = some (.datetime (ns.tdiv 1000000 * 1000000)) := if_pos hf
    rw [Value.bson, buildOne, this, Value.truncate]; rfl
    all_goals intros; contradiction
  | .array [], k, rest, _, _, _ => rfl
  | .document [], k, rest, _, _, _ => rfl
  | .array (v :: vs), k, rest, h, ht, hr => by
    have hnil : rest = [] := hr.resolve_right (by simp [Value.filled])
    have := build_arr (v :: vs) 0 h ht
    subst hnil
    rw [Value.bson]
    rw [show numbered 0 (v :: vs) = (subscript 0, v.bson) :: numbered 1 vs by rw [numbered]] at this ⊢
    rw [buildOne, List.append_nil, this, Value.truncate]
  | .document ((k', v) :: fs), k, rest, h, ht, hr => by
    have hnil : rest = [] := hr.resolve_right (by simp [Value.filled])
    have := build_doc ((k', v) :: fs) h ht
    subst hnil
    rw [Value.bson]
    rw [show bsonDoc ((k', v) :: fs) = (k', v.bson) :: bsonDoc fs by rw [bsonDoc]] at this ⊢
    rw [buildOne, List.append_nil, this, Value.truncate]
theorem build_arr : ∀ (vs : List Value) (i : Nat), inRangeArr vs → tidyArr vs → (build (numbered i vs)).map Prod.snd = truncateArr vs
  | [], _, _, _ => rfl
  | v :: vs, i, h, ht => by
    have ih := build_arr vs (i + 1) h.2 ht.2.2
    have hr : build (numbered (i + 1) vs) = [] ∨ v.filled = false := ht.2.1.imp (fun e => by rw [e]; rfl) id
    rw [numbered, build, build_one v _ _ h.1 ht.1 hr, truncateArr, List.map_cons, ih]
theorem build_doc : ∀ fs : List (Bytes × Value), inRangeDoc fs → tidyDoc fs → build (bsonDoc fs) = truncateDoc fs
  | [], _, _ => rfl
  | (k, v) :: fs, h, ht => by
    have ih := build_doc fs h.2 ht.2.2
    have hr : build (bsonDoc fs) = [] ∨ v.filled = false := ht.2.1.imp (fun e => by rw [e]; rfl) id
    rw [bsonDoc, build, build_one v _ _ h.1 ht.1 hr, truncateDoc, ih]
end

/-! ## Printing -/

section
variable (F : Fmt)

theorem piter_add (m n : Nat) : ∀ s, piter F (m + n) s = piter F n (piter F m s) := by
  induction m with
  | zero => intro s; rw [Nat.zero_add]; rfl
  | succ m ih => intro s; rw [Nat.succ_add]; exact ih (pstep F s)

theorem nodes_pos (v : Value) : 1 ≤ v.nodes := by cases v <;> simp [Value.nodes]

theorem textArr_cons2 (v v2 : Value) (vs : List Value) : textArr F (v :: v2 :: vs) = v.text F ++ b! "," ++ textArr F (v2 :: vs) := by
  rw [textArr]; simp

theorem textDoc_cons2 (k : Bytes) (v : Value) (f2 : Bytes × Value) (fs : List (Bytes × Value)) :
    textDoc F ((k, v) :: f2 :: fs) = F.key k ++ b! ":" ++ v.text F ++ b! "," ++ textDoc F (f2 :: fs) := by
  rw [textDoc]; simp

mutual
theorem print_spec : ∀ (v : Value) (st : List PFrame) (fmt : Bytes), piter F (2 * v.nodes - 1) (.print v st fmt) = .ret st (fmt ++ v.text F)
  | .null, st, fmt => rfl
  | .boolean _, st, fmt => rfl
  | .integer _, st, fmt => rfl
  | .double _, st, fmt => rfl
  | .utf8 _, st, fmt => rfl
  | .binary _, st, fmt => rfl
  | .oid _, st, fmt => rfl
  | .datetime _, st, fmt => rfl
  | .array [], st, fmt => rfl
  | .document [], st, fmt => rfl
  | .array (v :: vs), st, fmt => by
    have h := parr_spec (v :: vs) v (v :: vs) st (fmt ++ [chr '[']) rfl rfl
    have e : 2 * (Value.array (v :: vs)).nodes - 1 = 1 + 2 * nodesArr (v :: vs) := by simp only [Value.nodes]; omega
    rw [e, piter_add]
    refine Eq.trans h ?_
    rw [Value.text]; simp; exact ⟨rfl, rfl⟩
  | .document ((k, v) :: fs), st, fmt => by
    have h := pdoc_spec ((k, v) :: fs) k v ((k, v) :: fs) st (fmt ++ [chr '{']) rfl rfl
    have e : 2 * (Value.document ((k, v) :: fs)).nodes - 1 = 1 + 2 * nodesDoc ((k, v) :: fs) := by simp only [Value.nodes]; omega
    rw [e, piter_add]
    refine Eq.trans h ?_
    rw [Value.text]; simp; exact ⟨rfl, rfl⟩
theorem parr_spec : ∀ (vs : List Value) (v : Value) (all : List Value) (st : List PFrame) (fmt : Bytes), vs.head? = some v → all = vs →
    piter F (2 * nodesArr vs) (.print v (.arr all :: st) fmt) = .ret st (fmt ++ textArr F vs ++ [chr ']'])
  | [], v, all, st, fmt, h, _ => nomatch h
  | [v'], v, all, st, fmt, h, ha => by
    simp only [List.head?_cons, Option.some.injEq] at h; subst h ha
    have h1 := print_spec v' (.arr [v'] :: st) fmt
    have hn := nodes_pos v'
    have e : 2 * nodesArr [v'] = (2 * v'.nodes - 1) + 1 := by simp only [nodesArr]; omega
    rw [e, piter_add, h1]
    simp [piter, pstep, textArr]
  | v' :: v2 :: vs, v, all, st, fmt, h, ha => by
    simp only [List.head?_cons, Option.some.injEq] at h; subst h ha
    have h1 := print_spec v' (.arr (v' :: v2 :: vs) :: st) fmt
    have hn := nodes_pos v'
    have e : 2 * nodesArr (v' :: v2 :: vs) = (2 * v'.nodes - 1) + (1 + 2 * nodesArr (v2 :: vs)) := by rw [nodesArr]; omega
    rw [e, piter_add, h1, piter_add]
    have h2 := parr_spec (v2 :: vs) v2 (v2 :: vs) st (fmt ++ v'.text F ++ [chr ',']) rfl rfl
    refine Eq.trans h2 ?_
    rw [textArr_cons2]
    simp; rfl
theorem pdoc_spec : ∀ (fs : List (Bytes × Value)) (k : Bytes) (v : Value) (all : List (Bytes × Value)) (st : List PFrame) (fmt : Bytes), fs.head? = some (k, v) → all = fs →
    piter F (2 * nodesDoc fs) (.print v (.doc all :: st) (fmt ++ F.key k ++ [chr ':'])) = .ret st (fmt ++ textDoc F fs ++ [chr '}'])
  | [], k, v, all, st, fmt, h, _ => nomatch h
  | [(k', v')], k, v, all, st, fmt, h, ha => by
    simp only [List.head?_cons, Option.some.injEq, Prod.mk.injEq] at h
    obtain ⟨rfl, rfl⟩ := h
    subst ha
    have h1 := print_spec v' (.doc [(k', v')] :: st) (fmt ++ F.key k' ++ [chr ':'])
    have hn := nodes_pos v'
    have e : 2 * nodesDoc [(k', v')] = (2 * v'.nodes - 1) + 1 := by simp only [nodesDoc]; omega
    rw [e, piter_add, h1]
    simp [piter, pstep, textDoc]; rfl
  | (k', v') :: (k2, v2) :: fs, k, v, all, st, fmt, h, ha => by
    simp only [List.head?_cons, Option.some.injEq, Prod.mk.injEq] at h
    obtain ⟨rfl, rfl⟩ := h
    subst ha
    have h1 := print_spec v' (.doc ((k', v') :: (k2, v2) :: fs) :: st) (fmt ++ F.key k' ++ [chr ':'])
    have hn := nodes_pos v'
    have e : 2 * nodesDoc ((k', v') :: (k2, v2) :: fs) = (2 * v'.nodes - 1) + (1 + 2 * nodesDoc ((k2, v2) :: fs)) := by rw [nodesDoc]; omega
    rw [e, piter_add, h1, piter_add]
    have h2 := pdoc_spec ((k2, v2) :: fs) k2 v2 ((k2, v2) :: fs) st (fmt ++ F.key k' ++ [chr ':'] ++ v'.text F ++ [chr ',']) rfl rfl
    refine Eq.trans h2 ?_
    rw [textDoc_cons2]
    simp; exact ⟨rfl, rfl⟩
end

theorem print_value (v : Value) (fmt : Bytes) : printTo F v fmt = some (fmt ++ v.text F) := by
  have h1 := print_spec F v [] fmt
  have hn := nodes_pos v
  have e : 2 * v.nodes + 1 = (2 * v.nodes - 1) + 2 := by omega
  have h2 : piter F (2 * v.nodes + 1) (.print v [] fmt) = .done (fmt ++ v.text F) := by rw [e, piter_add, h1]; rfl
  simp only [printTo, h2]

end

end Verif.Mongo
