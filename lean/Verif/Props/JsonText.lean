import Verif.Props.Json
import Verif.Spec.JsonBody
import Verif.Props.Search

/-!
# The bodies of the HTTP server are JSON: C125
-/

namespace Riot.Json

open Riot Riot.Net

variable {S : Type}

/-! ## Reading -/

/-- **C125** The reader accepts exactly the texts of RFC 8259 and gives each its value. -/
theorem C125_reads_exactly (bs : Str) (v : Val) : parse bs = some v ↔ IsJson bs v := parse_iff bs v

/-- **C125** A text has one value only. -/
theorem C125_one_value {bs : Str} {v v' : Val} (h : IsJson bs v) (h' : IsJson bs v') : v = v' :=
  Option.some.inj (((parse_iff bs v).2 h).symm.trans ((parse_iff bs v').2 h'))

/-- **C125** The reader takes UTF-8 for what it is: the rune at the beginning of the bytes is the only character that the
bytes begin with, and there is none if it finds none. -/
theorem C125_utf8 (s : Str) : (runeLen s = 0 ↔ ∀ (r : Nat) (p u : Str), Encodes r p → s ≠ p ++ u) ∧
    ∀ (r : Nat) (p u : Str), Encodes r p → s = p ++ u → s.take (runeLen s) = p := by
  refine ⟨⟨?_, ?_⟩, ?_⟩
  · intro h r p u hp e
    have := encodes_runeLen hp u
    rw [← e] at this
    exact this h
  · intro h
    by_contra hne
    obtain ⟨r, hr, ht, -⟩ := rune_of_runeLen s hne
    refine h r (runeBytes r) (s.drop (runeLen s)) ((encodes_iff _ _).2 ⟨hr, rfl⟩) ?_
    rw [← ht, List.take_append_drop]
  · rintro r p u hp rfl
    obtain ⟨hr, rfl⟩ := (encodes_iff _ _).1 hp
    rw [runeLen_rune r hr, List.take_left' rfl]

/-- **C125** What is not JSON is an error, and then nothing is taken from the body. -/
theorem C125_not_json (fl : FloatFmt S) (zero : S) (bs : Str) (h : ∀ v : Val, ¬ IsJson bs v) : unmarshal fl zero bs = {} := by
  have : parse bs = none := by
    cases hp : parse bs with
    | none => rfl
    | some v => exact absurd ((parse_iff bs v).1 hp) (h v)
  rw [unmarshal, this]

/-- **C125** The way a server writes its JSON (white space, escapes) does not matter. -/
theorem C125_any_writing (fl : FloatFmt S) (zero : S) {bs bs' : Str} {v : Val} (h : IsJson bs v) (h' : IsJson bs' v) :
    unmarshal fl zero bs = unmarshal fl zero bs' := by
  rw [unmarshal, unmarshal, (parse_iff bs v).2 h, (parse_iff bs' v).2 h']

/-! ## Structs -/

theorem assign_keep {α β : Type} {set : Str → Val → α → α} {k : Str} {π : α → β}
    (hk : ∀ (k' : Str) (v : Val) (a : α), k' ≠ k → π (set k' v a) = π a) (l : Fields) (h : k ∉ l.members.map Prod.fst)
    (a : α) : π (l.assign set a) = π a := by
  match l, h with
  | .nil, _ => rfl
  | .cons k' v t, h =>
    simp only [Fields.members, List.map_cons, List.mem_cons, not_or] at h
    rw [Fields.assign, assign_keep hk t h.2, hk k' v a (Ne.symm h.1)]
termination_by sizeOf l

/-- A member decides its field. -/
theorem assign_get {α β : Type} {set : Str → Val → α → α} {k : Str} {v : Val} {π : α → β} {y : β}
    (hk : ∀ (k' : Str) (v : Val) (a : α), k' ≠ k → π (set k' v a) = π a) (hy : ∀ a : α, π (set k v a) = y) (l : Fields)
    (hn : (l.members.map Prod.fst).Nodup) (hm : (k, v) ∈ l.members) (a : α) : π (l.assign set a) = y := by
  match l, hn, hm with
  | .nil, _, hm => simp [Fields.members] at hm
  | .cons k' v' t, hn, hm =>
    simp only [Fields.members, List.map_cons, List.nodup_cons] at hn
    simp only [Fields.members, List.mem_cons, Prod.mk.injEq] at hm
    rw [Fields.assign]
    rcases hm with ⟨rfl, rfl⟩ | hm
    · rw [assign_keep hk t hn.1, hy]
    · exact assign_get hk hy t hn.2 hm _
termination_by sizeOf l

theorem object_get {α β : Type} {set : Str → Val → α → α} {k : Str} {v w : Val} {π : α → β} {y : β} {ms : List (Str × Val)}
    (hk : ∀ (k' : Str) (v : Val) (a : α), k' ≠ k → π (set k' v a) = π a) (hy : ∀ a : α, π (set k v a) = y)
    (hw : IsObject ms w) (hn : (ms.map Prod.fst).Nodup) (hm : (k, v) ∈ ms) (a : α) : π (w.toStruct set a) = y := by
  obtain ⟨l, rfl, hl⟩ := hw
  exact assign_get hk hy l ((hl.map Prod.fst).nodup_iff.2 hn) (hl.mem_iff.2 hm) a

theorem object_keep {α β : Type} {set : Str → Val → α → α} {w : Val} {π : α → β}
    (hk : ∀ (k' : Str) (v : Val) (a : α), π (set k' v a) = π a) (a : α) : π (w.toStruct set a) = π a := by
  cases w with
  | obj l =>
    rw [Val.toStruct]
    have : ∀ (l : Fields) (a : α), π (l.assign set a) = π a := by
      intro l
      induction hs : sizeOf l using Nat.strongRecOn generalizing l with
      | _ n ih =>
        intro a
        cases l with
        | nil => rfl
        | cons k v t =>
          rw [Fields.assign, ih (sizeOf t) (by rw [← hs]; simp) t rfl, hk]
    exact this l a
  | _ => rfl

theorem integer_read {z : Int} {v : Val} (h : IsInteger z v) (hv : v.NumsOk) (hz : Int64Range z) (old : Int) :
    v.toInt old = z := by
  obtain ⟨lit, rfl, hn⟩ := h
  simp only [Val.NumsOk] at hv
  unfold Int64Range at hz
  have hall {ds : Str} {n : Nat} (hd : Decimal ds n) : ds.all (between 48 57) = true := by
    rw [List.all_eq_true]
    intro b hb
    simp only [between, Bool.and_eq_true, decide_eq_true_eq]
    exact hd.foldl.2 b hb
  have : parseInt64 lit = some z := by
    cases hn with
    | @plain ds n hd =>
      obtain ⟨b, t, e, hb1, hb2⟩ := hd.first_digit
      rw [parseInt64]
      · rw [hd.foldl.1, if_pos ⟨hd.ne_nil, hall hd, by omega⟩]
      · intro t' ht
        rw [e] at ht
        obtain ⟨rfl, -⟩ := List.cons.inj ht
        revert hb1; decide
    | @plus ds n hd =>
      obtain ⟨b, t, e, hb⟩ := readNum_first hv
      obtain ⟨rfl, -⟩ := List.cons.inj e
      rcases hb with hb | hb
      · exact absurd hb (by decide)
      · exact absurd hb (by decide)
    | @minus ds n hd =>
      simp only [parseInt64]
      rw [hd.foldl.1, if_pos ⟨hd.ne_nil, hall hd, by omega⟩]
  simp only [Val.toInt, this, Option.getD_some]

mutual
theorem isVal_numsOk : ∀ (v : Val) (t : Str), IsVal t v → v.NumsOk
  | v, t, h => by
    cases h with
    | num h => exact (number_iff _).2 h
    | @arr u l h => exact areElems_numsOk l u h
    | @obj u l h => exact areFields_numsOk l u h
    | _ => trivial
termination_by v => sizeOf v
decreasing_by all_goals (subst_vars; simp_wf)
theorem areElems_numsOk : ∀ (l : Elems) (t : Str), AreElems t l → l.NumsOk
  | l, t, h => by
    cases h with
    | @one _ t _ v _ h _ => exact ⟨isVal_numsOk v t h, trivial⟩
    | @more _ t _ u v l _ h _ hl => exact ⟨isVal_numsOk v t h, areElems_numsOk l u hl⟩
termination_by l => sizeOf l
decreasing_by all_goals (subst_vars; simp_wf; try omega)
theorem areFields_numsOk : ∀ (l : Fields) (t : Str), AreFields t l → l.NumsOk
  | l, t, h => by
    cases h with
    | @one _ _ _ _ t _ _ v _ _ _ _ h _ => exact ⟨isVal_numsOk v t h, trivial⟩
    | @more _ _ _ _ t _ u _ v l _ _ _ _ h _ hl => exact ⟨isVal_numsOk v t h, areFields_numsOk l u hl⟩
termination_by l => sizeOf l
decreasing_by all_goals (subst_vars; simp_wf; try omega)
end

theorem members_numsOk (l : Fields) (h : l.NumsOk) : ∀ p ∈ l.members, p.2.NumsOk := by
  match l, h with
  | .nil, _ => intro p hp; simp [Fields.members] at hp
  | .cons k v t, h =>
    simp only [Fields.NumsOk] at h
    intro p hp
    simp only [Fields.members, List.mem_cons] at hp
    rcases hp with rfl | hp
    · exact h.1
    · exact members_numsOk t h.2 p hp
termination_by sizeOf l

theorem object_numsOk {ms : List (Str × Val)} {w : Val} (h : IsObject ms w) (hw : w.NumsOk) : ∀ p ∈ ms, p.2.NumsOk := by
  obtain ⟨l, rfl, hl⟩ := h
  intro p hp
  exact members_numsOk l hw p (hl.mem_iff.2 hp)

theorem elems_numsOk (l : Elems) (h : l.NumsOk) : ∀ v ∈ l.toList, v.NumsOk := by
  match l, h with
  | .nil, _ => intro p hp; simp [Elems.toList] at hp
  | .cons v t, h =>
    simp only [Elems.NumsOk] at h
    intro p hp
    simp only [Elems.toList, List.mem_cons] at hp
    rcases hp with rfl | hp
    · exact h.1
    · exact elems_numsOk t h.2 p hp
termination_by sizeOf l

theorem list_read {α : Type} {R : α → Val → Prop} {f : Val → α} {o : Option (List α)} {v : Val} (h : IsList R o v)
    (hv : v.NumsOk) (hf : ∀ x ∈ o.getD [], ∀ w : Val, w.NumsOk → R x w → f w = x) (old : Option (List α)) :
    v.toSlice f old = o := by
  cases o with
  | none => cases h; rfl
  | some l =>
    obtain ⟨e, rfl, he⟩ := h
    have hn := elems_numsOk e hv
    simp only [Val.toSlice, Option.some.injEq]
    rw [Option.getD_some] at hf
    clear hv
    generalize e.toList = vs at he hn
    induction he with
    | nil => rfl
    | cons h1 h2 ih =>
      rw [List.map_cons, hf _ (by simp) _ (hn _ (by simp)) h1,
        ih (fun x hx => hf x (by simp [hx])) (fun w hw => hn w (by simp [hw]))]

theorem score_read {fl : FloatFmt S} {x : S} {v : Val} (h : IsScore fl x v) (zero : S) : v.toFloat fl zero = x := by
  obtain ⟨lit, rfl, h⟩ := h
  simp only [Val.toFloat, h, Option.getD_some]

theorem set_attri (fl : FloatFmt S) (zero : S) (v : Val) (a : JText S) : setText fl zero (str "attri") v a =
    v.toStruct setAttri a := by
  unfold setText
  rw [if_neg (by decide +kernel), if_neg (by decide +kernel), if_neg (by decide +kernel), if_pos rfl]

theorem attri_keep (k : Str) (v : Val) (a : JText S) : (setAttri k v a).id = a.id ∧ (setAttri k v a).content = a.content ∧
    (setAttri k v a).score = a.score := by
  unfold setAttri
  split_ifs <;> exact ⟨rfl, rfl, rfl⟩

theorem attri_keys : [str "title", str "author", str "time", str "ts"].Nodup ∧
    [str "id", str "content", str "score", str "attri"].Nodup ∧
    [str "code", str "len", str "timestamp", str "docs"].Nodup := by
  refine ⟨?_, ?_, ?_⟩ <;> decide +kernel

theorem attri_read {t : JText S} {ts w : Val} (hts : IsInteger t.ts ts) (hr : Int64Range t.ts)
    (h : IsObject [(str "title", .text t.title), (str "author", .text t.author), (str "time", .text t.time), (str "ts", ts)] w)
    (hw : w.NumsOk) (a : JText S) : (w.toStruct setAttri a).title = t.title ∧ (w.toStruct setAttri a).author = t.author ∧
      (w.toStruct setAttri a).time = t.time ∧ (w.toStruct setAttri a).ts = t.ts := by
  have hn : ([(str "title", Val.text t.title), (str "author", .text t.author), (str "time", .text t.time),
    (str "ts", ts)].map Prod.fst).Nodup := attri_keys.1
  have hni := object_numsOk h hw (str "ts", ts) (by simp)
  refine ⟨object_get (π := JText.title) ?_ ?_ h hn (List.mem_cons_self ..) a,
    object_get (π := JText.author) ?_ ?_ h hn (List.mem_cons_of_mem _ (List.mem_cons_self ..)) a,
    object_get (π := JText.time) ?_ ?_ h hn (List.mem_cons_of_mem _ (List.mem_cons_of_mem _ (List.mem_cons_self ..))) a,
    object_get (π := JText.ts) ?_ ?_ h hn
      (List.mem_cons_of_mem _ (List.mem_cons_of_mem _ (List.mem_cons_of_mem _ (List.mem_cons_self ..)))) a⟩
  · intro k v a hk
    unfold setAttri
    rw [if_neg hk]
    split_ifs <;> rfl
  · intro a
    unfold setAttri
    rw [if_pos rfl]
    rfl
  · intro k v a hk
    unfold setAttri
    split_ifs <;> first | rfl | contradiction
  · intro a
    unfold setAttri
    rw [if_neg (by decide +kernel), if_pos rfl]
    rfl
  · intro k v a hk
    unfold setAttri
    split_ifs <;> first | rfl | contradiction
  · intro a
    unfold setAttri
    rw [if_neg (by decide +kernel), if_neg (by decide +kernel), if_pos rfl]
    rfl
  · intro k v a hk
    unfold setAttri
    split_ifs <;> first | rfl | contradiction
  · intro a
    unfold setAttri
    rw [if_neg (by decide +kernel), if_neg (by decide +kernel), if_neg (by decide +kernel), if_pos rfl]
    exact integer_read hts hni hr _

theorem text_read {fl : FloatFmt S} (zero : S) {t : JText S} {w : Val} (h : ShowsText fl t w) (hr : Int64Range t.ts)
    (hw : w.NumsOk) (a : JText S) : w.toStruct (setText fl zero) a = t := by
  obtain ⟨ts, score, attri, hts, hsc, hat, h⟩ := h
  have hn : ([(str "id", Val.text t.id), (str "content", .text t.content), (str "score", score),
    (str "attri", attri)].map Prod.fst).Nodup := attri_keys.2.1
  have hnu := object_numsOk h hw
  have m1 : (str "id", Val.text t.id) ∈ [(str "id", Val.text t.id), (str "content", .text t.content), (str "score", score),
    (str "attri", attri)] := List.mem_cons_self ..
  have m2 : (str "content", Val.text t.content) ∈ [(str "id", Val.text t.id), (str "content", .text t.content),
    (str "score", score), (str "attri", attri)] := List.mem_cons_of_mem _ (List.mem_cons_self ..)
  have m3 : (str "score", score) ∈ [(str "id", Val.text t.id), (str "content", .text t.content),
    (str "score", score), (str "attri", attri)] := List.mem_cons_of_mem _ (List.mem_cons_of_mem _ (List.mem_cons_self ..))
  have m4 : (str "attri", attri) ∈ [(str "id", Val.text t.id), (str "content", .text t.content),
    (str "score", score), (str "attri", attri)] :=
    List.mem_cons_of_mem _ (List.mem_cons_of_mem _ (List.mem_cons_of_mem _ (List.mem_cons_self ..)))
  have hattri := attri_read hts hr hat (hnu _ m4)
  have e1 : (w.toStruct (setText fl zero) a).id = t.id := by
    refine object_get (π := JText.id) ?_ ?_ h hn m1 a
    · intro k v a hk
      unfold setText
      split_ifs <;> first | rfl | contradiction | exact object_keep (fun k v a => (attri_keep k v a).1) a
    · intro a
      unfold setText
      rw [if_pos rfl]
      rfl
  have e2 : (w.toStruct (setText fl zero) a).content = t.content := by
    refine object_get (π := JText.content) ?_ ?_ h hn m2 a
    · intro k v a hk
      unfold setText
      split_ifs <;> first | rfl | contradiction | exact object_keep (fun k v a => (attri_keep k v a).2.1) a
    · intro a
      unfold setText
      rw [if_neg (by decide +kernel), if_pos rfl]
      rfl
  have e3 : (w.toStruct (setText fl zero) a).score = t.score := by
    refine object_get (π := JText.score) ?_ ?_ h hn m3 a
    · intro k v a hk
      unfold setText
      split_ifs <;> first | rfl | contradiction | exact object_keep (fun k v a => (attri_keep k v a).2.2) a
    · intro a
      unfold setText
      rw [if_neg (by decide +kernel), if_neg (by decide +kernel), if_pos rfl]
      exact list_read hsc (hnu _ m3) (fun x _ w _ hx => score_read hx zero) _
  have e4 : (w.toStruct (setText fl zero) a).title = t.title := by
    refine object_get (π := JText.title) ?_ (fun a => by rw [set_attri]; exact (hattri a).1) h hn m4 a
    intro k v a hk
    unfold setText
    split_ifs <;> first | rfl | contradiction
  have e5 : (w.toStruct (setText fl zero) a).author = t.author := by
    refine object_get (π := JText.author) ?_ (fun a => by rw [set_attri]; exact (hattri a).2.1) h hn m4 a
    intro k v a hk
    unfold setText
    split_ifs <;> first | rfl | contradiction
  have e6 : (w.toStruct (setText fl zero) a).time = t.time := by
    refine object_get (π := JText.time) ?_ (fun a => by rw [set_attri]; exact (hattri a).2.2.1) h hn m4 a
    intro k v a hk
    unfold setText
    split_ifs <;> first | rfl | contradiction
  have e7 : (w.toStruct (setText fl zero) a).ts = t.ts := by
    refine object_get (π := JText.ts) ?_ (fun a => by rw [set_attri]; exact (hattri a).2.2.2) h hn m4 a
    intro k v a hk
    unfold setText
    split_ifs <;> first | rfl | contradiction
  generalize w.toStruct (setText fl zero) a = x at e1 e2 e3 e4 e5 e6 e7
  cases x
  cases t
  simp_all

/-- **C125** Whatever server the body comes from, however it is written and in whatever order the members of its objects
come: a body that shows an answer is read as this answer. -/
theorem C125_reads_any_body (fl : FloatFmt S) (zero : S) (r : Response S) (hr : r.InRange) (bs : Str) (v : Val)
    (hb : IsJson bs v) (h : ShowsResponse fl r v) : unmarshal fl zero bs = r := by
  obtain ⟨r1, r2, r3, r4⟩ := hr
  rw [unmarshal, (parse_iff bs v).2 hb]
  simp only
  obtain ⟨-, t, -, -, -, ht, -⟩ := hb
  have hv := isVal_numsOk v t ht
  obtain ⟨code, len, timestamp, docs, h1, h2, h3, h4, h⟩ := h
  have hn : ([(str "code", code), (str "len", len), (str "timestamp", timestamp), (str "docs", docs)].map
    Prod.fst).Nodup := attri_keys.2.2
  have hnu := object_numsOk h hv
  have m1 : (str "code", code) ∈ [(str "code", code), (str "len", len), (str "timestamp", timestamp), (str "docs", docs)] :=
    List.mem_cons_self ..
  have m2 : (str "len", len) ∈ [(str "code", code), (str "len", len), (str "timestamp", timestamp), (str "docs", docs)] :=
    List.mem_cons_of_mem _ (List.mem_cons_self ..)
  have m3 : (str "timestamp", timestamp) ∈ [(str "code", code), (str "len", len), (str "timestamp", timestamp),
    (str "docs", docs)] := List.mem_cons_of_mem _ (List.mem_cons_of_mem _ (List.mem_cons_self ..))
  have m4 : (str "docs", docs) ∈ [(str "code", code), (str "len", len), (str "timestamp", timestamp), (str "docs", docs)] :=
    List.mem_cons_of_mem _ (List.mem_cons_of_mem _ (List.mem_cons_of_mem _ (List.mem_cons_self ..)))
  have e1 : (v.toStruct (setResponse fl zero) {}).code = r.code := by
    refine object_get (π := Response.code) ?_ ?_ h hn m1 _
    · intro k v a hk
      unfold setResponse
      split_ifs <;> first | rfl | contradiction
    · intro a
      unfold setResponse
      rw [if_pos rfl]
      exact integer_read h1 (hnu _ m1) r1 _
  have e2 : (v.toStruct (setResponse fl zero) {}).len = r.len := by
    refine object_get (π := Response.len) ?_ ?_ h hn m2 _
    · intro k v a hk
      unfold setResponse
      split_ifs <;> first | rfl | contradiction
    · intro a
      unfold setResponse
      rw [if_neg (by decide +kernel), if_pos rfl]
      exact integer_read h2 (hnu _ m2) r2 _
  have e3 : (v.toStruct (setResponse fl zero) {}).timestamp = r.timestamp := by
    refine object_get (π := Response.timestamp) ?_ ?_ h hn m3 _
    · intro k v a hk
      unfold setResponse
      split_ifs <;> first | rfl | contradiction
    · intro a
      unfold setResponse
      rw [if_neg (by decide +kernel), if_neg (by decide +kernel), if_pos rfl]
      exact integer_read h3 (hnu _ m3) r3 _
  have e4 : (v.toStruct (setResponse fl zero) {}).docs = r.docs := by
    refine object_get (π := Response.docs) ?_ ?_ h hn m4 _
    · intro k v a hk
      unfold setResponse
      split_ifs <;> first | rfl | contradiction
    · intro a
      unfold setResponse
      rw [if_neg (by decide +kernel), if_neg (by decide +kernel), if_neg (by decide +kernel), if_pos rfl]
      exact list_read h4 (hnu _ m4) (fun x hx w hw hs => text_read zero hs (r4 x hx) hw _) _
  generalize v.toStruct (setResponse fl zero) {} = x at e1 e2 e3 e4
  cases x
  cases r
  simp_all

/-! ## Writing -/

theorem slice_shows {α : Type} {f : α → Option Val} {g : α → α} {R : α → Val → Prop} {o : Option (List α)} {v : Val}
    (h : encSlice f o = some v) (hf : ∀ (x : α) (w : Val), f x = some w → R (g x) w.mended) :
    IsList R (o.map (List.map g)) v.mended := by
  cases o with
  | none => cases h; rfl
  | some l =>
    rw [encSlice, Option.map_eq_some_iff] at h
    obtain ⟨vs, hv, rfl⟩ := h
    refine ⟨Elems.ofList (vs.map Val.mended), ?_, ?_⟩
    · rw [ofSlice_mended]; rfl
    · rw [ofList_toList]
      induction l generalizing vs with
      | nil => cases hv; exact List.Forall₂.nil
      | cons x l ih =>
        rw [List.mapM_cons] at hv
        cases hx : f x with
        | none => rw [hx] at hv; cases hv
        | some y =>
          cases hl : l.mapM f with
          | none => rw [hx, hl] at hv; cases hv
          | some ys =>
            rw [hx, hl] at hv
            cases hv
            exact List.Forall₂.cons (hf x y hx) (ih ys hl)

theorem integer_shows (z : Int) : IsInteger z (Val.num (itoaInt z)).mended := ⟨_, rfl, numeral_itoaInt z⟩

theorem text_shows {fl : FloatFmt S} (hf : FloatOk fl) (t : JText S) (w : Val) (h : textVal fl t = some w) :
    ShowsText fl t.mended w.mended := by
  rw [textVal, Option.map_eq_some_iff] at h
  obtain ⟨sc, hsc, rfl⟩ := h
  have hk := keys
  simp only [List.cons.injEq, and_true] at hk
  obtain ⟨k1, k2, k3, k4, k5, k6, k7, k8, -⟩ := hk
  have hl := slice_shows (g := id) (R := IsScore fl) hsc (by
    intro x w hx
    rw [Option.map_eq_some_iff] at hx
    obtain ⟨lit, hlit, rfl⟩ := hx
    exact ⟨lit, rfl, (hf x lit hlit).2⟩)
  have hid : t.score.map (List.map id) = t.score := by cases t.score <;> simp
  rw [hid] at hl
  refine ⟨_, _, (attriVal t).mended, integer_shows t.ts, hl, ⟨_, by rw [attriVal, Val.mended], ?_⟩, ⟨_, by rw [Val.mended], ?_⟩⟩
  · simp only [Fields.mended, Fields.members, k1, k2, k3, k4, Val.mended]
    exact List.Perm.refl _
  · simp only [Fields.mended, Fields.members, k5, k6, k7, k8, Val.mended]
    exact List.Perm.refl _

theorem response_keys : [mend (str "code"), mend (str "len"), mend (str "timestamp"), mend (str "docs")] =
    [str "code", str "len", str "timestamp", str "docs"] := by
  decide +kernel

/-- **C125** What the server writes is a JSON text, by the letter of RFC 8259, and shows the answer (with U+FFFD in the place
of the bytes that are not UTF-8). -/
theorem C125_body_is_json {fl : FloatFmt S} (hf : FloatOk fl) (r : Response S) (bs : Str) (h : marshal fl r = some bs) :
    ∃ (r' : Response S) (v : Val), r'.code = r.code ∧ r'.len = r.len ∧ r'.timestamp = r.timestamp ∧
      SliceRel JText.MendedTo r.docs r'.docs ∧ IsJson bs v ∧ ShowsResponse fl r' v := by
  rw [marshal, Option.map_eq_some_iff] at h
  obtain ⟨v, hv, rfl⟩ := h
  rw [responseVal, Option.map_eq_some_iff] at hv
  obtain ⟨dv, hdv, rfl⟩ := hv
  have hnu : dv.NumsOk := by
    refine encSlice_numsOk ?_ hdv
    intro t w hw
    rw [textVal, Option.map_eq_some_iff] at hw
    obtain ⟨sc, hsc, rfl⟩ := hw
    simp only [attriVal, Val.NumsOk, Fields.NumsOk, true_and, and_true]
    refine ⟨encSlice_numsOk ?_ hsc, readNum_itoaInt _⟩
    intro x w hx
    rw [Option.map_eq_some_iff] at hx
    obtain ⟨lit, hl, rfl⟩ := hx
    exact (number_iff lit).2 (hf x lit hl).1
  have hk := response_keys
  simp only [List.cons.injEq, and_true] at hk
  obtain ⟨k1, k2, k3, k4⟩ := hk
  refine ⟨r.mended, _, rfl, rfl, rfl, ?_, write_json _ ?_, ?_⟩
  · unfold Response.mended
    cases r.docs with
    | none => exact SliceRel.none
    | some l =>
      refine SliceRel.some ?_
      rw [List.forall₂_map_right_iff]
      exact List.forall₂_same.2 fun t _ => mended_to t
  · simp only [Val.NumsOk, Fields.NumsOk, and_true]
    exact ⟨readNum_itoaInt _, readNum_itoaInt _, readNum_itoaInt _, hnu⟩
  · refine ⟨_, _, _, _, integer_shows r.code, integer_shows r.len, integer_shows r.timestamp,
      slice_shows (g := JText.mended) (R := ShowsText fl) hdv (text_shows hf), ⟨_, by rw [Val.mended], ?_⟩⟩
    simp only [Fields.mended, Fields.members, k1, k2, k3, k4, Val.mended]
    exact List.Perm.refl _

/-- **C125** The distributed search (two servers or more that answer): only the values of the bodies matter, and what is not
JSON contributes nothing. -/
theorem C125_distributed_any_writing (fl : FloatFmt S) (zero : S) (gs : GSort) (now max : Int) (bodies bodies' : List Str)
    (h : List.Forall₂ (fun b b' => b ≠ [] ∧ b' ≠ [] ∧ ∀ v : Val, IsJson b v ↔ IsJson b' v) bodies bodies')
    (hl : bodies.length ≠ 1) : distBody fl zero gs now max bodies = distBody fl zero gs now max bodies' := by
  have key : ∀ b b' : Str, (∀ v : Val, IsJson b v ↔ IsJson b' v) → unmarshal fl zero b = unmarshal fl zero b' := by
    intro b b' hb
    have : parse b = parse b' := by
      cases hp : parse b with
      | some v => exact ((parse_iff b' v).2 ((hb v).1 ((parse_iff b v).1 hp))).symm
      | none =>
        cases hp' : parse b' with
        | none => rfl
        | some v =>
          have := (parse_iff b v).2 ((hb v).2 ((parse_iff b' v).1 hp'))
          rw [hp] at this
          cases this
    rw [unmarshal, unmarshal, this]
  have hk : ∀ l l' : List Str, List.Forall₂ (fun b b' => b ≠ [] ∧ b' ≠ [] ∧ ∀ v : Val, IsJson b v ↔ IsJson b' v) l l' →
      kept l = l ∧ kept l' = l' ∧ l'.length = l.length ∧ (l'.flatMap fun b => ((unmarshal fl zero b).docs).getD []) =
        l.flatMap fun b => ((unmarshal fl zero b).docs).getD [] := by
    intro l l' hll
    induction hll with
    | nil => exact ⟨rfl, rfl, rfl, rfl⟩
    | @cons b b' l l' h1 h2 ih =>
      obtain ⟨i1, i2, i3, i4⟩ := ih
      refine ⟨?_, ?_, by simp [i3], ?_⟩
      · unfold kept at i1 ⊢
        rw [List.filter_cons_of_pos (by simpa using h1.1), i1]
      · unfold kept at i2 ⊢
        rw [List.filter_cons_of_pos (by simpa using h1.2.1), i2]
      · rw [List.flatMap_cons, List.flatMap_cons, i4, key b b' h1.2.2]
  obtain ⟨e1, e2, e3, e4⟩ := hk bodies bodies' h
  have two : ∀ l : List Str, l.length ≠ 1 → kept l = l → distBody fl zero gs now max l =
      (let docs := gs JText.less (l.flatMap fun b => ((unmarshal fl zero b).docs).getD [])
       if (docs.length : Int) > max then (goSub docs 0 (max - 1)).map fun l => body fl now (some l)
       else some (body fl now (if docs = [] then none else some docs))) := by
    intro l hlen hkl
    unfold distBody
    rw [hkl]
    match l, hlen with
    | [], _ => rfl
    | [_], hlen => exact absurd rfl hlen
    | _ :: _ :: _, _ => rfl
  rw [two bodies hl e1, two bodies' (by omega) e2, e4]

/-! ## Examples -/

/-- A body of another server: white space, escapes, members in another order. -/
def otherBody : Str :=
  str " {\n\"docs\" : [ {\"attri\":{\"ts\":7,\"time\":\"now\",\"author\":\"\",\"title\":\"&\"},\t\"score\": [3 , -12], \"content\" : \"\\u0022\\u00E9\\n\\u003C\\u4e16>\",\"id\":\"\\u0061\"} ],\r\n\"timestamp\":5,\"len\":1,\"code\":0}\n"

/-- The value of the document in it. -/
def otherDoc : Val :=
  .obj (.cons (str "attri") (.obj (.cons (str "ts") (.num [55]) (.cons (str "time") (.text (str "now"))
      (.cons (str "author") (.text []) (.cons (str "title") (.text (str "&")) .nil)))))
    (.cons (str "score") (.arr (.cons (.num [51]) (.cons (.num [45, 49, 50]) .nil)))
    (.cons (str "content") (.text demoText.content) (.cons (str "id") (.text demoText.id) .nil))))

/-- Its value. -/
def otherVal : Val :=
  .obj (.cons (str "docs") (.arr (.cons otherDoc .nil)) (.cons (str "timestamp") (.num [53])
    (.cons (str "len") (.num [49]) (.cons (str "code") (.num [48]) .nil))))

theorem other_json : IsJson otherBody otherVal := (parse_iff _ _).1 (by kernel_rfl)

theorem rev4 {α : Type} (a b c d : α) : [a, b, c, d].Perm [d, c, b, a] := List.reverse_perm [d, c, b, a]

theorem other_shows : ShowsResponse demoFl { code := 0, len := 1, timestamp := 5, docs := some [demoText] } otherVal := by
  refine ⟨.num [48], .num [49], .num [53], .arr (.cons otherDoc .nil), ⟨_, rfl, .plain (.digit 48 (by decide))⟩,
    ⟨_, rfl, .plain (.digit 49 (by decide))⟩, ⟨_, rfl, .plain (.digit 53 (by decide))⟩, ⟨_, rfl, ?_⟩, ⟨_, rfl, ?_⟩⟩
  · refine List.Forall₂.cons ?_ List.Forall₂.nil
    refine ⟨.num [55], .arr (.cons (.num [51]) (.cons (.num [45, 49, 50]) .nil)),
      .obj (.cons (str "ts") (.num [55]) (.cons (str "time") (.text (str "now"))
        (.cons (str "author") (.text []) (.cons (str "title") (.text (str "&")) .nil)))),
      ⟨_, rfl, .plain (.digit 55 (by decide))⟩, ⟨_, rfl, ?_⟩, ⟨_, rfl, ?_⟩, ⟨_, rfl, ?_⟩⟩
    · exact List.Forall₂.cons ⟨_, rfl, by decide +kernel⟩ (List.Forall₂.cons ⟨_, rfl, by decide +kernel⟩ List.Forall₂.nil)
    · exact rev4 _ _ _ _
    · exact rev4 _ _ _ _
  · exact rev4 _ _ _ _

/-- The hypotheses of `C125_reads_any_body` are met. -/
example : unmarshal demoFl .nan otherBody = { code := 0, len := 1, timestamp := 5, docs := some [demoText] } := by
  refine C125_reads_any_body demoFl .nan _ ?_ otherBody otherVal other_json other_shows
  refine ⟨by unfold Int64Range; decide, by unfold Int64Range; decide, by unfold Int64Range; decide, ?_⟩
  intro t ht
  simp only [Option.getD_some, List.mem_singleton] at ht
  subst ht
  unfold Int64Range; decide

/-- A pair of surrogates, a lone one, a number with a fraction and an exponent. -/
example : IsJson (str "[\"\\ud834\\uDD1E\", \"\\udd1e\\/\\b\", -0.5E+10 , true]")
    (.arr (.cons (.text [0xF0, 0x9D, 0x84, 0x9E]) (.cons (.text [0xEF, 0xBF, 0xBD, 0x2F, 0x08])
      (.cons (.num (str "-0.5E+10")) (.cons (.bool true) .nil))))) :=
  (parse_iff _ _).1 (by kernel_rfl)

theorem not_json {bs : Str} (h : (parse bs).isNone = true) (v : Val) : ¬ IsJson bs v := by
  intro hv
  rw [(parse_iff bs v).2 hv] at h
  cases h

/-- Texts that are not JSON: a comma too many, a number that begins with a zero, a plus sign, a line end in a string, an
unknown escape, something behind the value. -/
example : ∀ bs ∈ [str "[1,]", str "01", str "+1", str "\"\n\"", str "\"\\x\"", str "{} 1", str "1.", str "{\"a\" 1}", []],
    ∀ v : Val, ¬ IsJson bs v := by
  have h : ∀ bs ∈ [str "[1,]", str "01", str "+1", str "\"\n\"", str "\"\\x\"", str "{} 1", str "1.", str "{\"a\" 1}", []],
      (parse bs).isNone = true := by decide +kernel
  exact fun bs hb v => not_json (h bs hb) v

/-- The hypothesis of `C125_not_json` is met: a body that was cut off in the middle. -/
example : unmarshal demoFl .nan (otherBody.take 100) = {} :=
  C125_not_json demoFl .nan _ (not_json (by decide +kernel))

/-- The hypothesis of `C125_body_is_json` is met. -/
example : ∃ bs : Str, marshal demoFl { len := 1, timestamp := 5, docs := some [demoText] } = some bs :=
  Option.ne_none_iff_exists'.1 (by decide +kernel)

/-- The hypotheses of `C125_distributed_any_writing` are met: the body of this server and the other body. -/
example : List.Forall₂ (fun b b' => b ≠ [] ∧ b' ≠ [] ∧ ∀ v : Val, IsJson b v ↔ IsJson b' v)
    [otherBody, str "nul", str "[1,2]"] [otherBody ++ str " ", str "{,}", str "[ 1,2\n]"] := by
  have hsome : ∀ (b b' : Str) (v : Val), parse b = some v → parse b' = some v → ∀ w : Val, IsJson b w ↔ IsJson b' w := by
    intro b b' v h h' w
    rw [← parse_iff, ← parse_iff, h, h']
  have hnone : ∀ b b' : Str, (parse b).isNone = true → (parse b').isNone = true → ∀ w : Val, IsJson b w ↔ IsJson b' w :=
    fun b b' h h' w => ⟨fun hw => absurd hw (not_json h w), fun hw => absurd hw (not_json h' w)⟩
  refine .cons ⟨by decide +kernel, by decide +kernel, ?_⟩ (.cons ⟨by decide +kernel, by decide +kernel, ?_⟩
    (.cons ⟨by decide +kernel, by decide +kernel, ?_⟩ .nil))
  · exact hsome _ _ otherVal (by kernel_rfl) (by kernel_rfl)
  · exact hnone _ _ (by decide +kernel) (by decide +kernel)
  · exact hsome _ _ (.arr (.cons (.num [49]) (.cons (.num [50]) .nil))) (by kernel_rfl) (by kernel_rfl)

end Riot.Json
