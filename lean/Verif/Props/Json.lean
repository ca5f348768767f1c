import Verif.Proofs.JsonParse
import Verif.Props.Net

/-!
# The bodies of the HTTP server: C118
-/

namespace Riot.Json

open Riot Riot.Net

variable {S : Type}

/-! ## Writing and reading the structs -/

/-- A document with its texts mended. -/
def JText.mended (t : JText S) : JText S :=
  { t with id := mend t.id, content := mend t.content, title := mend t.title, author := mend t.author, time := mend t.time }

theorem mended_to (t : JText S) : t.MendedTo t.mended :=
  ⟨mended_mend _, mended_mend _, rfl, mended_mend _, mended_mend _, mended_mend _, rfl⟩

theorem mended_plain {t : JText S} (h : t.Plain) : t.mended = t := by
  obtain ⟨h1, h2, h3, h4, h5⟩ := h
  unfold JText.mended
  rw [mend_utf8 h1, mend_utf8 h2, mend_utf8 h3, mend_utf8 h4, mend_utf8 h5]

theorem mend_small {s : Str} (h : ∀ b ∈ s, b.val < 0x80) : mend s = s := by
  induction s with
  | nil => rw [mend]
  | cons b t ih => rw [mend_cons_small b t (h b (by simp)), ih (fun c hc => h c (by simp [hc]))]

/-- The names of the fields, and that they are different. -/
theorem keys : [mend (str "title"), mend (str "author"), mend (str "time"), mend (str "ts"), mend (str "id"),
    mend (str "content"), mend (str "score"), mend (str "attri"), mend (str "code"), mend (str "len"),
    mend (str "timestamp"), mend (str "docs")] = [str "title", str "author", str "time", str "ts", str "id", str "content",
    str "score", str "attri", str "code", str "len", str "timestamp", str "docs"] := by
  rw [mend_small (s := str "title") (by decide +kernel), mend_small (s := str "author") (by decide +kernel),
    mend_small (s := str "time") (by decide +kernel), mend_small (s := str "ts") (by decide +kernel),
    mend_small (s := str "id") (by decide +kernel), mend_small (s := str "content") (by decide +kernel),
    mend_small (s := str "score") (by decide +kernel), mend_small (s := str "attri") (by decide +kernel),
    mend_small (s := str "code") (by decide +kernel), mend_small (s := str "len") (by decide +kernel),
    mend_small (s := str "timestamp") (by decide +kernel), mend_small (s := str "docs") (by decide +kernel)]

theorem keys_ne : str "author" ≠ str "title" ∧ str "time" ≠ str "title" ∧ str "time" ≠ str "author" ∧
    str "ts" ≠ str "title" ∧ str "ts" ≠ str "author" ∧ str "ts" ≠ str "time" ∧ str "content" ≠ str "id" ∧
    str "score" ≠ str "id" ∧ str "score" ≠ str "content" ∧ str "attri" ≠ str "id" ∧ str "attri" ≠ str "content" ∧
    str "attri" ≠ str "score" ∧ str "len" ≠ str "code" ∧ str "timestamp" ≠ str "code" ∧ str "timestamp" ≠ str "len" ∧
    str "docs" ≠ str "code" ∧ str "docs" ≠ str "len" ∧ str "docs" ≠ str "timestamp" := by decide +kernel

theorem ofList_mended (l : List Val) : (Elems.ofList l).mended = Elems.ofList (l.map Val.mended) := by
  induction l with
  | nil => rfl
  | cons v l ih => rw [Elems.ofList, Elems.mended, ih]; rfl

theorem ofList_toList (l : List Val) : (Elems.ofList l).toList = l := by
  induction l with
  | nil => rfl
  | cons v l ih => rw [Elems.ofList, Elems.toList, ih]

theorem ofList_numsOk {l : List Val} (h : ∀ v ∈ l, v.NumsOk) : (Elems.ofList l).NumsOk := by
  induction l with
  | nil => trivial
  | cons v l ih => exact ⟨h v (by simp), ih (fun w hw => h w (by simp [hw]))⟩

theorem ofSlice_mended (o : Option (List Val)) : (ofSlice o).mended = ofSlice (o.map (List.map Val.mended)) := by
  cases o with
  | none => rfl
  | some l => simp only [ofSlice, Val.mended, ofList_mended, Option.map_some]

theorem ofSlice_read {α : Type} (f : Val → α) (old : Option (List α)) (o : Option (List Val)) :
    (ofSlice o).toSlice f old = o.map (List.map f) := by
  cases o with
  | none => rfl
  | some l => simp only [ofSlice, Val.toSlice, ofList_toList, Option.map_some]

theorem ofSlice_numsOk {o : Option (List Val)} (h : ∀ v ∈ o.getD [], v.NumsOk) : (ofSlice o).NumsOk := by
  cases o with
  | none => trivial
  | some l => exact ofList_numsOk h

/-- The scores of a document. -/
theorem score_vals {fl : FloatFmt S} (hf : FloatOk fl) (zero : S) (l : List S) (h : ∀ x ∈ l, fl.fmt x ≠ none) :
    ∃ vs : List Val, (l.mapM fun x => (fl.fmt x).map Val.num) = some vs ∧ (∀ v ∈ vs, v.NumsOk ∧ v.mended = v) ∧
      vs.map (Val.toFloat fl zero) = l := by
  induction l with
  | nil => exact ⟨[], rfl, by simp, rfl⟩
  | cons x l ih =>
    obtain ⟨vs, e, h1, h2⟩ := ih (fun y hy => h y (by simp [hy]))
    obtain ⟨t, ht⟩ := Option.ne_none_iff_exists'.1 (h x (by simp))
    obtain ⟨r1', r2⟩ := hf x t ht
    have r1 := (number_iff t).2 r1'
    refine ⟨.num t :: vs, by rw [List.mapM_cons, e, ht]; rfl, ?_, ?_⟩
    · intro v hv
      rcases List.mem_cons.1 hv with rfl | hv
      · exact ⟨r1, rfl⟩
      · exact h1 v hv
    · rw [List.map_cons, h2]
      simp only [Val.toFloat, r2, Option.getD_some]

theorem text_val {fl : FloatFmt S} (hf : FloatOk fl) (zero : S) (t : JText S) (ht : Int64Range t.ts)
    (h : ∀ x ∈ t.score.getD [], fl.fmt x ≠ none) :
    ∃ v : Val, textVal fl t = some v ∧ v.NumsOk ∧ v.mended.toStruct (setText fl zero) {} = t.mended := by
  obtain ⟨sc, hsc, hn, hr⟩ : ∃ sc : Option (List Val),
      encSlice (fun x => (fl.fmt x).map Val.num) t.score = some (ofSlice sc) ∧
      (∀ v ∈ sc.getD [], v.NumsOk ∧ v.mended = v) ∧ sc.map (List.map (Val.toFloat fl zero)) = t.score := by
    cases hs : t.score with
    | none => exact ⟨none, rfl, by simp, rfl⟩
    | some l =>
      rw [hs] at h
      obtain ⟨vs, e, h1, h2⟩ := score_vals hf zero l h
      exact ⟨some vs, by rw [encSlice, e]; rfl, h1, by simp only [Option.map_some, h2]⟩
  refine ⟨_, by rw [textVal, hsc]; rfl, ?_, ?_⟩
  · simp only [attriVal, Val.NumsOk, Fields.NumsOk, true_and, and_true]
    exact ⟨ofSlice_numsOk (fun v hv => (hn v hv).1), readNum_itoaInt _⟩
  · have hk := keys
    simp only [List.cons.injEq, and_true] at hk
    obtain ⟨k1, k2, k3, k4, k5, k6, k7, k8, -⟩ := hk
    obtain ⟨n1, n2, n3, n4, n5, n6, n7, n8, n9, n10, n11, n12, -⟩ := keys_ne
    have hm : sc.map (List.map Val.mended) = sc := by
      cases sc with
      | none => rfl
      | some vs =>
        rw [Option.map_some]
        congr 1
        exact (List.map_congr_left (fun v hv => (hn v hv).2)).trans (List.map_id _)
    simp only [attriVal, Val.mended, Fields.mended, k1, k2, k3, k4, k5, k6, k7, k8, ofSlice_mended, hm, Val.toStruct,
      Fields.assign, setText, setAttri, if_true, if_neg n1, if_neg n2, if_neg n3, if_neg n4, if_neg n5, if_neg n6, if_neg n7,
      if_neg n8, if_neg n9, if_neg n10, if_neg n11, if_neg n12, ofSlice_read, hr, Val.toStr, Val.toInt,
      parseInt64_itoaInt t.ts ht, Option.getD_some]
    rfl

theorem text_vals {fl : FloatFmt S} (hf : FloatOk fl) (zero : S) (l : List (JText S)) (ht : ∀ t ∈ l, Int64Range t.ts)
    (h : Finite fl l) :
    ∃ vs : List Val, l.mapM (textVal fl) = some vs ∧ (∀ v ∈ vs, v.NumsOk) ∧
      (vs.map Val.mended).map (Val.toStruct (setText fl zero) {}) = l.map JText.mended := by
  induction l with
  | nil => exact ⟨[], rfl, by simp, rfl⟩
  | cons x l ih =>
    obtain ⟨vs, e, h1, h2⟩ := ih (fun y hy => ht y (by simp [hy])) (fun y hy => h y (by simp [hy]))
    obtain ⟨v, ev, r1, r2⟩ := text_val hf zero x (ht x (by simp)) (h x (by simp))
    refine ⟨v :: vs, by rw [List.mapM_cons, e, ev]; rfl, ?_, ?_⟩
    · intro w hw
      rcases List.mem_cons.1 hw with rfl | hw
      · exact r1
      · exact h1 w hw
    · simp only [List.map_cons, h2, r2]

/-- What is read from a body. -/
def Response.mended (r : Response S) : Response S := { r with docs := r.docs.map (List.map JText.mended) }

theorem read_marshal {fl : FloatFmt S} (hf : FloatOk fl) (zero : S) (r : Response S) (hr : r.InRange)
    (h : Finite fl (r.docs.getD [])) : ∃ bs : Str, marshal fl r = some bs ∧ unmarshal fl zero bs = r.mended := by
  obtain ⟨hc, hl, hts, hd⟩ := hr
  obtain ⟨ds, hds, hn, hrd⟩ : ∃ ds : Option (List Val),
      encSlice (textVal fl) r.docs = some (ofSlice ds) ∧ (∀ v ∈ ds.getD [], v.NumsOk) ∧
      (ds.map (List.map Val.mended)).map (List.map (Val.toStruct (setText fl zero) {})) =
        r.docs.map (List.map JText.mended) := by
    cases hs : r.docs with
    | none => exact ⟨none, rfl, by simp, rfl⟩
    | some l =>
      rw [hs] at h hd
      obtain ⟨vs, e, h1, h2⟩ := text_vals hf zero l hd h
      exact ⟨some vs, by rw [encSlice, e]; rfl, h1, by simp only [Option.map_some, h2]⟩
  refine ⟨_, by rw [marshal, responseVal, hds]; rfl, ?_⟩
  have hk := keys
  simp only [List.cons.injEq, and_true] at hk
  obtain ⟨-, -, -, -, -, -, -, -, k9, k10, k11, k12⟩ := hk
  obtain ⟨-, -, -, -, -, -, -, -, -, -, -, -, n1, n2, n3, n4, n5, n6⟩ := keys_ne
  unfold unmarshal
  rw [parse_write]
  · simp only [Val.mended, Fields.mended, k9, k10, k11, k12, ofSlice_mended, Val.toStruct, Fields.assign, setResponse, if_true,
      if_neg n1, if_neg n2, if_neg n3, if_neg n4, if_neg n5, if_neg n6, ofSlice_read, hrd, Val.toInt,
      parseInt64_itoaInt _ hc, parseInt64_itoaInt _ hl, parseInt64_itoaInt _ hts, Option.getD_some]
    rfl
  · simp only [Val.NumsOk, Fields.NumsOk, and_true]
    exact ⟨readNum_itoaInt _, readNum_itoaInt _, readNum_itoaInt _, ofSlice_numsOk hn⟩

/-! ## C118 -/

/-- **C118** Every answer of the HTTP server — any number of documents, any texts in UTF-8, any finite scores, any 64-bit
numbers — is read back from its body exactly as it was, nil and empty slices told apart. -/
theorem C118_body_reads_back {fl : FloatFmt S} (hf : FloatOk fl) (zero : S) (r : Response S) (hr : r.InRange)
    (hs : Finite fl (r.docs.getD [])) (hu : ∀ t ∈ r.docs.getD [], t.Plain) :
    ∃ bs : Str, marshal fl r = some bs ∧ unmarshal fl zero bs = r := by
  obtain ⟨bs, e, h⟩ := read_marshal hf zero r hr hs
  refine ⟨bs, e, h.trans ?_⟩
  unfold Response.mended
  cases hd : r.docs with
  | none => rw [Option.map_none, ← hd]
  | some l =>
    rw [hd] at hu
    have : l.map JText.mended = l := (List.map_congr_left (fun t ht => mended_plain (hu t ht))).trans (List.map_id _)
    rw [Option.map_some, this, ← hd]

/-- **C118 (partial)** Whatever bytes the texts consist of, what is read is the same answer with every byte that does not
belong to the encoding of a rune replaced by U+FFFD. Missing for the full claim: the texts themselves (see
`C118_refuted_not_utf8`). -/
theorem C118_reads_mended_partial {fl : FloatFmt S} (hf : FloatOk fl) (zero : S) (r : Response S) (hr : r.InRange)
    (hs : Finite fl (r.docs.getD [])) :
    ∃ (bs : Str) (r' : Response S), marshal fl r = some bs ∧ unmarshal fl zero bs = r' ∧ r'.code = r.code ∧ r'.len = r.len ∧
      r'.timestamp = r.timestamp ∧ SliceRel JText.MendedTo r.docs r'.docs := by
  obtain ⟨bs, e, h⟩ := read_marshal hf zero r hr hs
  refine ⟨bs, _, e, h, rfl, rfl, rfl, ?_⟩
  unfold Response.mended
  cases hd : r.docs with
  | none => exact .none
  | some l =>
    refine .some ?_
    rw [List.forall₂_map_right_iff]
    exact List.forall₂_same.2 (fun t _ => mended_to t)

/-- **C118** A text is what it was if and only if it is UTF-8: one document whose content is not UTF-8 always comes out with
another content. -/
theorem C118_refuted_not_utf8 {fl : FloatFmt S} (hf : FloatOk fl) (zero : S) (t : JText S) (ht : Int64Range t.ts)
    (hs : Finite fl [t]) (now : Int) (hn : Int64Range now) (hc : ¬ Utf8 t.content) :
    ∃ t' : JText S, (unmarshal fl zero (body fl now (some [t]))).docs = some [t'] ∧ t'.content ≠ t.content := by
  have hr : ({ len := (([t] : List (JText S)).length : Int), timestamp := now, docs := some [t] } : Response S).InRange :=
    ⟨by unfold Int64Range; simp, by unfold Int64Range; simp, hn, by simpa using ht⟩
  obtain ⟨bs, e, h⟩ := read_marshal hf zero _ hr hs
  refine ⟨t.mended, ?_, ?_⟩
  · unfold body
    rw [Option.getD_some, e, Option.getD_some, h]
    rfl
  · exact fun hcon => hc ((mend_eq_iff _).1 hcon)

theorem mapM_none_iff {α β : Type} (f : α → Option β) (l : List α) : l.mapM f = none ↔ ∃ x ∈ l, f x = none := by
  induction l with
  | nil => simp
  | cons x l ih =>
    rw [List.mapM_cons]
    cases hx : f x with
    | none => simp [hx]
    | some y =>
      cases hl : l.mapM f with
      | none => simp [hx, ih.1 hl]
      | some ys =>
        have : ¬ ∃ x ∈ l, f x = none := fun h => by rw [ih.2 h] at hl; cases hl
        simpa [hx] using this

theorem encSlice_none {α : Type} (f : α → Option Val) (o : Option (List α)) :
    encSlice f o = none ↔ ∃ x ∈ o.getD [], f x = none := by
  cases o with
  | none => simp [encSlice]
  | some l => rw [encSlice, Option.map_eq_none_iff, mapM_none_iff, Option.getD_some]

theorem encSlice_numsOk {α : Type} {f : α → Option Val} (hf : ∀ (x : α) (v : Val), f x = some v → v.NumsOk)
    {o : Option (List α)} {v : Val} (h : encSlice f o = some v) : v.NumsOk := by
  cases o with
  | none => cases h; trivial
  | some l =>
    rw [encSlice, Option.map_eq_some_iff] at h
    obtain ⟨vs, hv, rfl⟩ := h
    refine ofSlice_numsOk ?_
    rw [Option.getD_some]
    induction l generalizing vs with
    | nil => cases hv; simp
    | cons x l ih =>
      rw [List.mapM_cons] at hv
      cases hx : f x with
      | none => rw [hx] at hv; cases hv
      | some y =>
        cases hl : l.mapM f with
        | none => rw [hx, hl] at hv; cases hv
        | some ys =>
          rw [hx, hl] at hv
          cases hv
          intro w hw
          rcases List.mem_cons.1 hw with rfl | hw
          · exact hf x w hx
          · exact ih ys hl w hw

theorem textVal_none {fl : FloatFmt S} (t : JText S) : textVal fl t = none ↔ ∃ x ∈ t.score.getD [], fl.fmt x = none := by
  rw [textVal, Option.map_eq_none_iff, encSlice_none]
  simp

theorem marshal_none (fl : FloatFmt S) (r : Response S) : marshal fl r = none ↔ ¬ Finite fl (r.docs.getD []) := by
  rw [marshal, Option.map_eq_none_iff, responseVal, Option.map_eq_none_iff, encSlice_none]
  unfold Finite
  push Not
  simp only [textVal_none]

/-- **C118** A single NaN among the scores of a single document leaves the whole answer of the server without any body. -/
theorem C118_refuted_nan (fl : FloatFmt S) (now : Int) (docs : List (JText S)) (h : ¬ Finite fl docs) :
    body fl now (some docs) = [] := by
  unfold body
  rw [(marshal_none fl { len := (((some docs).getD []).length : Int), timestamp := now, docs := some docs }).2 h]
  rfl

/-- **C118** There is an error exactly when some score is not finite, and otherwise the body is not empty. -/
theorem C118_body_iff_finite (fl : FloatFmt S) (now : Int) (docs : Option (List (JText S))) :
    body fl now docs ≠ [] ↔ Finite fl (docs.getD []) := by
  unfold body
  constructor
  · intro h
    by_contra hc
    rw [(marshal_none fl _).2 hc] at h
    exact h rfl
  · intro h
    obtain ⟨bs, e⟩ := Option.ne_none_iff_exists'.1 (fun hc => (marshal_none fl
      { len := ((docs.getD []).length : Int), timestamp := now, docs := docs }).1 hc h)
    rw [e, Option.getD_some]
    rw [marshal, Option.map_eq_some_iff] at e
    obtain ⟨v, h1, rfl⟩ := e
    rw [responseVal, Option.map_eq_some_iff] at h1
    obtain ⟨d, -, rfl⟩ := h1
    rw [write]
    simp

/-- **C118** The body of a search (or of a distributed search) with any documents gives the client exactly these documents,
their number and the time. -/
theorem C118_client_sees {fl : FloatFmt S} (hf : FloatOk fl) (zero : S) (now : Int) (hn : Int64Range now)
    (docs : Option (List (JText S))) (h : Sound fl (docs.getD [])) :
    unmarshal fl zero (body fl now docs) =
      { code := 0, len := ((docs.getD []).length : Int), timestamp := now, docs := docs } := by
  have hr : ({ len := ((docs.getD []).length : Int), timestamp := now, docs := docs } : Response S).InRange :=
    ⟨by unfold Int64Range; simp, h.length, hn, h.ts⟩
  obtain ⟨bs, e, hb⟩ := C118_body_reads_back hf zero _ hr h.finite h.plain
  unfold body
  rw [e, Option.getD_some, hb]

/-! ## The distributed search -/

theorem less_asText (a b : JText S) : JText.less a b = textLess a.asText b.asText := rfl

theorem less_weak (l : List (JText S)) : StrictWeakOn JText.less l where
  irrefl := fun a _ => (textLess_weak [a.asText]).irrefl a.asText (by simp)
  trans := fun a _ b _ c _ =>
    (textLess_weak [a.asText, b.asText, c.asText]).trans a.asText (by simp) b.asText (by simp) c.asText (by simp)
  incomp := fun a _ b _ c _ =>
    (textLess_weak [a.asText, b.asText, c.asText]).incomp a.asText (by simp) b.asText (by simp) c.asText (by simp)

theorem sort_newest {gs : GSort} (hgs : GSortOk gs) (l : List (JText S)) :
    NewestFirst ((gs JText.less l).map JText.asText) := by
  unfold NewestFirst
  rw [List.pairwise_map]
  exact (hgs.sorted JText.less l (less_weak l)).imp (fun h => textLess_false.1 h)

theorem distBody_eq (fl : FloatFmt S) (zero : S) (gs : GSort) (now max : Int) (bodies : List Str)
    (h : (kept bodies).length ≠ 1) : distBody fl zero gs now max bodies =
      (let docs := gs JText.less ((kept bodies).flatMap fun b => ((unmarshal fl zero b).docs).getD [])
       if (docs.length : Int) > max then (goSub docs 0 (max - 1)).map fun l => body fl now (some l)
       else some (body fl now (if docs = [] then none else some docs))) := by
  unfold distBody
  split
  · rename_i b hb; rw [hb] at h; exact absurd rfl h
  · rfl

theorem kept_bodies (fl : FloatFmt S) (answers : List (Int × Option (List (JText S))))
    (h : ∀ a ∈ answers, Finite fl (a.2.getD [])) :
    kept (answers.map fun a => body fl a.1 a.2) = answers.map fun a => body fl a.1 a.2 := by
  unfold kept
  rw [List.filter_eq_self]
  intro b hb
  obtain ⟨a, ha, rfl⟩ := List.mem_map.1 hb
  exact decide_eq_true ((C118_body_iff_finite fl _ _).2 (h a ha))

theorem goSub_take {α : Type} (l : List α) (max : Nat) (h1 : 1 ≤ max) (h : max < l.length) :
    goSub l 0 ((max : Int) - 1) = some (l.take (max - 1)) := by
  unfold goSub
  rw [if_pos (by omega)]
  simp only [Int.toNat_zero, List.drop_zero]
  congr 2
  omega

theorem Sound.of_sublist {fl : FloatFmt S} {l m : List (JText S)} (h : Sound fl l) (hm : m.Sublist l) : Sound fl m :=
  ⟨fun t ht => h.finite t (hm.subset ht), fun t ht => h.plain t (hm.subset ht), fun t ht => h.ts t (hm.subset ht),
    by have := h.length; have := hm.length_le; unfold Int64Range at *; omega⟩

theorem Sound.of_perm {fl : FloatFmt S} {l m : List (JText S)} (h : Sound fl l) (hm : m.Perm l) : Sound fl m :=
  ⟨fun t ht => h.finite t (hm.subset ht), fun t ht => h.plain t (hm.subset ht), fun t ht => h.ts t (hm.subset ht),
    by have := h.length; have := hm.length_eq; unfold Int64Range at *; omega⟩

/-- **C118** The distributed search over any number of servers other than one, all of which answer, through the JSON texts
of all the bodies: the client gets the documents of all servers in order (one less than the limit if there are more than
the limit, as C50 says). -/
theorem C118_distributed {gs : GSort} (hgs : GSortOk gs) {fl : FloatFmt S} (hf : FloatOk fl) (zero : S) (now : Int)
    (hn : Int64Range now) (max : Nat) (hmax : 1 ≤ max) (answers : List (Int × Option (List (JText S))))
    (h1 : answers.length ≠ 1) (ht : ∀ a ∈ answers, Int64Range a.1)
    (h : Sound fl (answers.flatMap fun a => a.2.getD [])) :
    ∃ (b : Str) (R : List (JText S)), distBody fl zero gs now max (answers.map fun a => body fl a.1 a.2) = some b ∧
      R.Perm (answers.flatMap fun a => a.2.getD []) ∧ NewestFirst (R.map JText.asText) ∧
      ((unmarshal fl zero b).docs).getD [] = R.take (if R.length ≤ max then max else max - 1) ∧
      (unmarshal fl zero b).len = (((unmarshal fl zero b).docs).getD []).length ∧ (unmarshal fl zero b).timestamp = now := by
  have hs (a : Int × Option (List (JText S))) (ha : a ∈ answers) : Sound fl (a.2.getD []) := by
    refine h.of_sublist ?_
    rw [List.flatMap]
    exact List.sublist_flatten_of_mem (List.mem_map.2 ⟨a, ha, rfl⟩)
  have hk := kept_bodies fl answers (fun a ha => (hs a ha).finite)
  have hu : (kept (answers.map fun a => body fl a.1 a.2)).flatMap (fun b => ((unmarshal fl zero b).docs).getD []) =
      answers.flatMap fun a => a.2.getD [] := by
    rw [hk, List.flatMap_map]
    refine List.flatMap_congr (fun a ha => ?_)
    rw [C118_client_sees hf zero a.1 (ht a ha) a.2 (hs a ha)]
  have hp := hgs.perm JText.less (answers.flatMap fun a => a.2.getD [])
  have hl : (kept (answers.map fun a => body fl a.1 a.2)).length ≠ 1 := by rw [hk, List.length_map]; exact h1
  rw [distBody_eq _ _ _ _ _ _ hl, hu]
  simp only
  have hnew := sort_newest hgs (answers.flatMap fun a => a.2.getD [])
  have hsR := h.of_perm hp
  revert hp hnew hsR
  generalize gs JText.less (answers.flatMap fun a => a.2.getD []) = R
  intro hp hnew hsR
  by_cases hfit : R.length ≤ max
  · rw [if_neg (by omega)]
    have hd : ((if R = [] then none else some R : Option (List (JText S)))).getD [] = R := by
      by_cases hR : R = []
      · rw [if_pos hR, hR]; rfl
      · rw [if_neg hR]; rfl
    refine ⟨_, R, rfl, hp, hnew, ?_⟩
    rw [C118_client_sees hf zero now hn _ (by rw [hd]; exact hsR)]
    refine ⟨?_, rfl, rfl⟩
    simp only [hd, if_pos hfit]
    rw [List.take_of_length_le hfit]
  · rw [if_pos (by omega), goSub_take R max hmax (by omega)]
    refine ⟨_, R, rfl, hp, hnew, ?_⟩
    rw [C118_client_sees hf zero now hn (some (R.take (max - 1))) (hsR.of_sublist (List.take_sublist _ _))]
    refine ⟨?_, rfl, rfl⟩
    rw [if_neg hfit]; rfl

/-- **C118** A server whose answer contains a NaN disappears from the distributed search with all its documents: the result
is that of the other servers. -/
theorem C118_refuted_nan_distributed (fl : FloatFmt S) (zero : S) (gs : GSort) (now max : Int)
    (before after : List Str) (t : Int) (docs : List (JText S)) (h : ¬ Finite fl docs) :
    distBody fl zero gs now max (before ++ body fl t (some docs) :: after) = distBody fl zero gs now max (before ++ after) := by
  have : kept (before ++ body fl t (some docs) :: after) = kept (before ++ after) := by
    rw [C118_refuted_nan fl t docs h]
    simp [kept]
  unfold distBody
  rw [this]

/-- **C118** Whatever bytes the servers send — no JSON at all, or any other JSON — the distributed search does not crash if
the limit is at least one. -/
theorem C118_any_bodies {fl : FloatFmt S} (zero : S) (gs : GSort) (now : Int) (max : Nat) (hmax : 1 ≤ max) (bodies : List Str) :
    ∃ b : Str, distBody fl zero gs now max bodies = some b := by
  by_cases h : (kept bodies).length = 1
  · obtain ⟨b, hb⟩ := List.length_eq_one_iff.1 h
    exact ⟨b, by unfold distBody; rw [hb]⟩
  · rw [distBody_eq _ _ _ _ _ _ h]
    simp only
    split_ifs with h1
    · rw [goSub_take _ max hmax (by omega)]; exact ⟨_, rfl⟩
    · exact ⟨_, rfl⟩
    · exact ⟨_, rfl⟩

/-- **C118** A single body is passed on as it is. -/
theorem C118_single_body (fl : FloatFmt S) (zero : S) (gs : GSort) (now max : Int) (bodies : List Str) (b : Str)
    (h : bodies.filter (fun x => decide (x ≠ [])) = [b]) : distBody fl zero gs now max bodies = some b := by
  unfold distBody kept
  rw [h]

theorem showsDoc_iff {F : Type} {d : ScoredDoc F JAttri} {t : JText F32} : ShowsDoc d t ↔ toJText d = some t := by
  unfold toJText
  constructor
  · rintro ⟨h1, h2, h3, h4⟩
    rw [h4]
    cases t
    simp only at h1 h2 h3 h4
    simp [h1, h2, h3]
  · intro h
    split at h
    · rename_i title author time ts ha
      cases h
      exact ⟨rfl, rfl, rfl, ha⟩
    · cases h

theorem mapM_forall2 {α β : Type} {f : α → Option β} {l : List α} {m : List β}
    (h : List.Forall₂ (fun a b => f a = some b) l m) : l.mapM f = some m := by
  induction h with
  | nil => rfl
  | cons h1 _ ih => rw [List.mapM_cons, h1, ih]; rfl

/-- **C118** From the engine's documents to the client of the HTTP server: the client gets the documents — ids, contents,
attributes, scores — newest first, up to the limit, with their number and the time. -/
theorem C118_search_body {F : Type} {gs : GSort} (hgs : GSortOk gs) {fl : FloatFmt F32} (hf : FloatOk fl) (zero : F32)
    (now : Int) (hn : Int64Range now) (max : Nat) (docs : List (ScoredDoc F JAttri)) (texts : List (JText F32))
    (hd : List.Forall₂ ShowsDoc docs texts) (h : Sound fl texts) :
    ∃ (b : Str) (R : List (JText F32)), searchBody fl gs now max docs = some b ∧ R.Perm texts ∧
      NewestFirst (R.map JText.asText) ∧ ((unmarshal fl zero b).docs).getD [] = R.take max ∧
      (unmarshal fl zero b).len = (((unmarshal fl zero b).docs).getD []).length ∧ (unmarshal fl zero b).timestamp = now := by
  have hm : docs.mapM toJText = some texts := mapM_forall2 (hd.imp (fun _ _ => showsDoc_iff.1))
  unfold searchBody
  rw [hm, Option.bind_some]
  simp only
  have hp := hgs.perm JText.less texts
  have hnew := sort_newest hgs texts
  have hsR := h.of_perm hp
  revert hp hnew hsR
  generalize gs JText.less texts = R
  intro hp hnew hsR
  by_cases hfit : R.length ≤ max
  · rw [if_neg (by omega)]
    have hd : ((if R = [] then none else some R : Option (List (JText F32)))).getD [] = R := by
      by_cases hR : R = []
      · rw [if_pos hR, hR]; rfl
      · rw [if_neg hR]; rfl
    refine ⟨_, R, rfl, hp, hnew, ?_⟩
    rw [C118_client_sees hf zero now hn _ (by rw [hd]; exact hsR)]
    refine ⟨?_, rfl, rfl⟩
    simp only [hd]
    rw [List.take_of_length_le hfit]
  · have hg : goSub R 0 (max : Int) = some (R.take max) := by
      unfold goSub
      rw [if_pos (by omega)]
      simp
    rw [if_pos (by omega), hg]
    refine ⟨_, R, rfl, hp, hnew, ?_⟩
    rw [C118_client_sees hf zero now hn (some (R.take max)) (hsR.of_sublist (List.take_sublist _ _))]
    exact ⟨rfl, rfl, rfl⟩

/-! ## No markup, no control characters -/

/-- A byte of a body: no control character and none of `<`, `>` and `&`. -/
def Tame (b : Fin 256) : Prop := 32 ≤ b.val ∧ b ≠ 60 ∧ b ≠ 62 ∧ b ≠ 38

instance (b : Fin 256) : Decidable (Tame b) := inferInstanceAs (Decidable (32 ≤ b.val ∧ b ≠ 60 ∧ b ≠ 62 ∧ b ≠ 38))

theorem hexDigit_tame : ∀ n : Fin 16, Tame (hexDigit n.val) := by decide +kernel

theorem escape_tame (b : Fin 256) : ∀ c ∈ escape b, Tame c := by
  have h1 := hexDigit_tame ⟨b.val / 16, by omega⟩
  have h2 := hexDigit_tame ⟨b.val % 16, by omega⟩
  intro c hc
  unfold escape at hc
  split_ifs at hc with g1 g2 g3 g4 g5
  · rcases g1 with rfl | rfl <;> (revert c; decide +kernel)
  · revert c; decide +kernel
  · revert c; decide +kernel
  · revert c; decide +kernel
  · simp only [List.mem_cons, List.not_mem_nil, or_false] at hc
    rcases hc with rfl | rfl | rfl | rfl | rfl | rfl
    · decide
    · decide
    · decide
    · decide
    · exact h1
    · exact h2
  · rw [List.mem_singleton] at hc
    subst hc
    push Not at g5
    exact ⟨g5.1, g5.2⟩

theorem big_tame {b : Fin 256} (h : 0x80 ≤ b.val) : Tame b := by
  refine ⟨by omega, ?_, ?_, ?_⟩ <;> (rintro rfl; revert h; decide)

theorem runeBytes_big {r : Nat} (h : ¬ r < 0x80) (hr : Scalar r) : ∀ b ∈ runeBytes r, 0x80 ≤ b.val := by
  unfold runeBytes
  unfold Scalar at hr
  rw [if_neg h]
  split_ifs with h1 h2
  · simp only [List.mem_cons, List.not_mem_nil, or_false, forall_eq_or_imp, forall_eq]
    rw [ofNat_val (by omega), ofNat_val (by omega)]; omega
  · simp only [List.mem_cons, List.not_mem_nil, or_false, forall_eq_or_imp, forall_eq]
    rw [ofNat_val (by omega), ofNat_val (by omega), ofNat_val (by omega)]; omega
  · simp only [List.mem_cons, List.not_mem_nil, or_false, forall_eq_or_imp, forall_eq]
    rw [ofNat_val (by omega), ofNat_val (by omega), ofNat_val (by omega), ofNat_val (by omega)]; omega

theorem writeChars_tame (s : Str) : ∀ b ∈ writeChars s, Tame b := by
  induction hn : s.length using Nat.strongRecOn generalizing s with
  | _ n ih =>
    cases s with
    | nil => rw [writeChars]; simp
    | cons b t =>
      rw [List.length_cons] at hn
      rw [writeChars]
      intro c hc
      by_cases hb : b.val < 0x80
      · rw [if_pos hb, List.mem_append] at hc
        rcases hc with hc | hc
        · exact escape_tame b c hc
        · exact ih t.length (by omega) t rfl c hc
      · rw [if_neg hb] at hc
        by_cases h0 : runeLen (b :: t) = 0
        · rw [if_pos h0, List.mem_append] at hc
          rcases hc with hc | hc
          · revert c; decide +kernel
          · exact ih t.length (by omega) t rfl c hc
        · rw [if_neg h0, List.mem_append] at hc
          rcases hc with hc | hc
          · split_ifs at hc
            · revert c; decide +kernel
            · revert c; decide +kernel
            · obtain ⟨r, hr, e, -⟩ := rune_of_runeLen (b :: t) h0
              rw [e] at hc
              refine big_tame (runeBytes_big ?_ hr c hc)
              intro hlt
              unfold runeBytes at e
              rw [if_pos hlt] at e
              obtain ⟨k, hk⟩ := Nat.exists_eq_succ_of_ne_zero h0
              rw [hk, List.take_succ_cons] at e
              injection e with e1 _
              rw [e1, ofNat_val (by omega)] at hb
              exact hb hlt
          · exact ih _ (by rw [List.length_drop]; omega) (t.drop (runeLen (b :: t) - 1)) rfl c hc

theorem numStep_tame : ∀ b : Fin 256, ¬ Tame b → ∀ q : Fin 9, numStep q b = none := by decide +kernel

theorem numStep_lt {q q' : Nat} {b : Fin 256} (h : numStep q b = some q') : q < 9 ∧ q' < 9 := by
  unfold numStep at h
  simp only at h
  split at h <;> first | (cases h) | (split_ifs at h <;> (cases h; decide))

theorem readNum_tame (t : Str) : ∀ q : Nat, readNum q t = some (t, []) → ∀ b ∈ t, Tame b := by
  induction t with
  | nil => simp
  | cons b t ih =>
    intro q h
    rw [readNum] at h
    cases hn : numStep q b with
    | none =>
      rw [hn] at h
      simp only at h
      split_ifs at h
      simp at h
    | some q' =>
      rw [hn] at h
      simp only [Option.map_eq_some_iff] at h
      obtain ⟨⟨x, y⟩, h1, h2⟩ := h
      simp only [Prod.mk.injEq, List.cons.injEq, true_and] at h2
      obtain ⟨rfl, rfl⟩ := h2
      intro c hc
      rcases List.mem_cons.1 hc with rfl | hc
      · by_contra hcon
        have := numStep_tame c hcon ⟨q, (numStep_lt hn).1⟩
        rw [this] at hn; cases hn
      · exact ih q' h1 c hc

theorem writeStr_tame (s : Str) : ∀ b ∈ writeStr s, Tame b := by
  intro b hb
  rw [writeStr] at hb
  simp only [List.mem_cons, List.mem_append, List.not_mem_nil, or_false] at hb
  rcases hb with rfl | hb | rfl
  · decide
  · exact writeChars_tame s b hb
  · decide

mutual
theorem write_tame : ∀ v : Val, v.NumsOk → ∀ b ∈ write v, Tame b
  | .null, _ => by decide +kernel
  | .bool true, _ => by decide +kernel
  | .bool false, _ => by decide +kernel
  | .num lit, h => by rw [write]; exact readNum_tame lit 0 h
  | .text s, _ => by rw [write]; exact writeStr_tame s
  | .arr .nil, _ => by decide +kernel
  | .arr (.cons v t), h => by
    rw [write]
    intro b hb
    simp only [List.mem_cons, List.mem_append] at hb
    rcases hb with rfl | hb | hb
    · decide
    · exact write_tame v h.1 b hb
    · exact writeElems_tame t h.2 b hb
  | .obj .nil, _ => by decide +kernel
  | .obj (.cons k v t), h => by
    rw [write]
    intro b hb
    simp only [List.mem_cons, List.mem_append] at hb
    rcases hb with rfl | hb | rfl | hb | hb
    · decide
    · exact writeStr_tame k b hb
    · decide
    · exact write_tame v h.1 b hb
    · exact writeFields_tame t h.2 b hb
theorem writeElems_tame : ∀ t : Elems, t.NumsOk → ∀ b ∈ writeElems t, Tame b
  | .nil, _ => by decide +kernel
  | .cons v t, h => by
    rw [writeElems]
    intro b hb
    simp only [List.mem_cons, List.mem_append] at hb
    rcases hb with rfl | hb | hb
    · decide
    · exact write_tame v h.1 b hb
    · exact writeElems_tame t h.2 b hb
theorem writeFields_tame : ∀ t : Fields, t.NumsOk → ∀ b ∈ writeFields t, Tame b
  | .nil, _ => by decide +kernel
  | .cons k v t, h => by
    rw [writeFields]
    intro b hb
    simp only [List.mem_cons, List.mem_append] at hb
    rcases hb with rfl | hb | rfl | hb | hb
    · decide
    · exact writeStr_tame k b hb
    · decide
    · exact write_tame v h.1 b hb
    · exact writeFields_tame t h.2 b hb
end

/-- **C118** Whatever documents are shown, there is no control character, no line end and no `<`, `>` or `&` in the body:
an indexed text cannot put markup into it. -/
theorem C118_no_markup {fl : FloatFmt S} (hf : FloatOk fl) (r : Response S) (bs : Str) (h : marshal fl r = some bs) :
    ∀ b ∈ bs, 32 ≤ b.val ∧ b ≠ 60 ∧ b ≠ 62 ∧ b ≠ 38 := by
  rw [marshal, Option.map_eq_some_iff] at h
  obtain ⟨v, hv, rfl⟩ := h
  refine write_tame v ?_
  rw [responseVal, Option.map_eq_some_iff] at hv
  obtain ⟨d, hd, rfl⟩ := hv
  simp only [Val.NumsOk, Fields.NumsOk, and_true]
  refine ⟨readNum_itoaInt _, readNum_itoaInt _, readNum_itoaInt _, ?_⟩
  refine encSlice_numsOk ?_ hd
  intro t v ht
  rw [textVal, Option.map_eq_some_iff] at ht
  obtain ⟨sc, hsc, rfl⟩ := ht
  simp only [attriVal, Val.NumsOk, Fields.NumsOk, true_and, and_true]
  refine ⟨encSlice_numsOk ?_ hsc, readNum_itoaInt _⟩
  intro x w hx
  rw [Option.map_eq_some_iff] at hx
  obtain ⟨lit, hl, rfl⟩ := hx
  exact (number_iff lit).2 (hf x lit hl).1

/-! ## Examples -/

/-- A formatting of whole numbers; other numbers are refused here. -/
def demoFl : FloatFmt F32 where
  fmt := fun x => match x with
    | .fin q => if q.den = 1 ∧ - 2 ^ 63 ≤ q.num ∧ q.num < 2 ^ 63 then some (itoaInt q.num) else none
    | _ => none
  parse := fun t => (parseInt64 t).map fun (z : Int) => F32.fin (z : Rat)

theorem demoFl_ok : FloatOk demoFl := by
  intro x t h
  cases x with
  | fin q =>
    simp only [demoFl] at h ⊢
    split_ifs at h with hq
    cases h
    refine ⟨(number_iff _).1 (readNum_itoaInt _), ?_⟩
    rw [parseInt64_itoaInt _ ⟨hq.2.1, hq.2.2⟩, Option.map_some]
    congr 2
    exact Rat.ext rfl hq.1.symm
  | _ => simp [demoFl] at h

/-- A document with a quote, a line end, markup and two letters outside ASCII ("é" and "世"). -/
def demoText : JText F32 :=
  { id := str "a", content := str "\"é\n<世>", score := some [.fin 3, .fin (-12)], title := str "&", author := [],
    time := str "now", ts := 7 }

/-- Another one, without scores. -/
def demoText' : JText F32 := { id := str "b", content := str "x", ts := -9 }

example : marshal demoFl { len := 1, timestamp := 5, docs := some [demoText] } =
    some (str "{\"code\":0,\"len\":1,\"timestamp\":5,\"docs\":[{\"id\":\"a\",\"content\":\"\\\"é\\n\\u003c世\\u003e\",\"score\":[3,-12],\"attri\":{\"title\":\"\\u0026\",\"author\":\"\",\"time\":\"now\",\"ts\":7}}]}") := by
  decide +kernel

theorem small_utf8 {s : Str} (h : ∀ b ∈ s, b.val < 0x80) : Utf8 s := (mend_eq_iff s).1 (mend_small h)

theorem demo_utf8 : Utf8 (str "\"é\n<世>") :=
  ⟨[34, 233, 10, 60, 0x4E16, 62], by unfold Scalar; decide, by decide +kernel⟩

theorem demo_sound : Sound demoFl [demoText, demoText'] where
  finite := by
    intro t ht x hx
    simp only [List.mem_cons, List.not_mem_nil, or_false] at ht
    rcases ht with rfl | rfl
    · have : x = .fin 3 ∨ x = .fin (-12) := by simpa [demoText] using hx
      rcases this with rfl | rfl <;> decide +kernel
    · simp [demoText'] at hx
  plain := by
    intro t ht
    simp only [List.mem_cons, List.not_mem_nil, or_false] at ht
    rcases ht with rfl | rfl
    · exact ⟨small_utf8 (by decide +kernel), demo_utf8, small_utf8 (by decide +kernel), small_utf8 (by decide +kernel),
        small_utf8 (by decide +kernel)⟩
    · exact ⟨small_utf8 (by decide +kernel), small_utf8 (by decide +kernel), small_utf8 (by decide +kernel),
        small_utf8 (by decide +kernel), small_utf8 (by decide +kernel)⟩
  ts := by
    intro t ht
    simp only [List.mem_cons, List.not_mem_nil, or_false] at ht
    rcases ht with rfl | rfl <;> (unfold Int64Range; decide)
  length := by unfold Int64Range; decide

/-- The hypotheses of `C118_body_reads_back` and `C118_client_sees` are met. -/
example : unmarshal demoFl .nan (body demoFl 5 (some [demoText, demoText'])) =
    { code := 0, len := 2, timestamp := 5, docs := some [demoText, demoText'] } :=
  C118_client_sees demoFl_ok .nan 5 (by unfold Int64Range; decide) (some [demoText, demoText']) demo_sound

/-- Two servers, limit two: both documents arrive. -/
example : ∃ (b : Str) (R : List (JText F32)),
    distBody demoFl .nan insGSort 5 2 ([(1, some [demoText]), (2, some [demoText'])].map fun a => body demoFl a.1 a.2) = some b ∧
      R.Perm [demoText, demoText'] ∧ ((unmarshal demoFl .nan b).docs).getD [] = R := by
  obtain ⟨b, R, h1, h2, -, h3, -⟩ := C118_distributed insGSort_ok demoFl_ok .nan 5 (by unfold Int64Range; decide) 2 (by decide)
    [(1, some [demoText]), (2, some [demoText'])] (by decide)
    (by intro a ha; simp only [List.mem_cons, List.not_mem_nil, or_false] at ha; rcases ha with rfl | rfl <;> (unfold Int64Range; decide))
    demo_sound
  have hl : R.length = 2 := h2.length_eq
  refine ⟨b, R, h1, h2, ?_⟩
  rw [h3, if_pos (by omega), List.take_of_length_le (by omega)]

/-- The same through the bytes, with limit one: no document is shown. -/
example : distBody demoFl .nan insGSort 5 1 ([(1, some [demoText]), (2, some [demoText'])].map fun a => body demoFl a.1 a.2) =
    some (str "{\"code\":0,\"len\":0,\"timestamp\":5,\"docs\":[]}") := by
  decide +kernel

/-- **C118** One document with a content of the single byte 0xFF: the client sees the three bytes of U+FFFD. -/
theorem C118_refuted_concrete : ¬ Utf8 [255] ∧
    (unmarshal demoFl .nan (body demoFl 5 (some [{ id := str "a", content := [255], ts := 0 }]))).docs =
      some [{ id := str "a", content := [0xEF, 0xBF, 0xBD], ts := 0 }] := by
  refine ⟨fun h => ?_, by decide +kernel⟩
  have h1 := mend_utf8 h
  have h2 : mend [255] = [0xEF, 0xBF, 0xBD] := by decide +kernel
  rw [h1] at h2
  exact absurd h2 (by decide)

/-- A NaN among the scores, in one of two servers. -/
example : ¬ Finite demoFl [demoText, { demoText' with score := some [.nan] }] := fun h =>
  h { demoText' with score := some [.nan] } (by simp) .nan (by simp) (by decide +kernel)

/-- The hypotheses of `C118_search_body` are met. -/
example : List.Forall₂ ShowsDoc
    [({ scoredID := { docId := str "a", scores := [.fin 3, .fin (-12)] }, content := str "\"é\n<世>",
        attri := some (.attri (str "&") [] (str "now") 7) } : ScoredDoc Nat JAttri)] [demoText] :=
  .cons ⟨rfl, rfl, rfl, rfl⟩ .nil

end Riot.Json
