import Verif.Lemmas.Carries
import Verif.Lemmas.SameSelf
import Verif.Lemmas.SameMsg
import Verif.Lemmas.TypedPerm
/-! # Writing a message again with an older version of the schema -/
namespace Verif.Lemmas
open Verif.Spec Verif.Model

variable {O S : Schema} {σ : Nat → Nat → Nat} {l : Bool}

/-- Unless loss is allowed, no oneof in the message is set to a default value. -/
def Shown (S : Schema) (l : Bool) (id : Nat) (v : Val) : Prop := l = false → ∀ i u, Reach S id v i u → MembersShown S i u

/-- What the induction over messages provides for sub-messages, whatever order the entries of maps are listed in. -/
def SubRelay (O S : Schema) (σ : Nat → Nat → Nat) (l : Bool) (enc : Nat → Val → Option Bytes) : Prop :=
  ∀ (d : Int) (id : Nat) (v w w0 : Val) (b : Bytes), Car O S σ d id v w → MapPerm w w0 → Shown S l id v → Typed S id v → Typed O id w →
    enc id w0 = some b → b.length < 2 ^ 64 → ∃ u, Decodes S d id b (S id).zero u ∧ Same S l id v u

theorem perm_slice {xs : List Val} {y : Val} (h : MapPerm (.slice xs) y) : ∃ ys, y = .slice ys ∧ xs.length = ys.length ∧
    ∀ (i : Nat) (a b : Val), xs[i]? = some a → ys[i]? = some b → MapPerm a b := by
  cases h with
  | refl => exact ⟨xs, rfl, rfl, fun i a b ha hb => by rw [ha] at hb; cases hb; exact .refl _⟩
  | slice _ ys h1 h2 => exact ⟨ys, rfl, h1, h2⟩

theorem perm_struct {xs : List Val} {y : Val} (h : MapPerm (.struct xs) y) : ∃ ys, y = .struct ys ∧ xs.length = ys.length ∧
    ∀ (i : Nat) (a b : Val), xs[i]? = some a → ys[i]? = some b → MapPerm a b := by
  cases h with
  | refl => exact ⟨xs, rfl, rfl, fun i a b ha hb => by rw [ha] at hb; cases hb; exact .refl _⟩
  | struct _ ys h1 h2 => exact ⟨ys, rfl, h1, h2⟩

theorem perm_ptr {x y : Val} (h : MapPerm (.ptr (some x)) y) : ∃ z, y = .ptr (some z) ∧ MapPerm x z := by
  cases h with
  | refl => exact ⟨x, rfl, .refl _⟩
  | ptr _ z h => exact ⟨z, rfl, h⟩

theorem perm_map {m : List (Key × Val)} {y : Val} (h : MapPerm (.map (some m)) y) : ∃ m1 m', y = .map (some m') ∧ m.Perm m1 ∧
    m1.map (·.1) = m'.map (·.1) ∧ ∀ (i : Nat) (a b : Key × Val), m1[i]? = some a → m'[i]? = some b → MapPerm a.2 b.2 := by
  cases h with
  | refl => exact ⟨m, m, rfl, .refl _, rfl, fun i a b ha hb => by rw [ha] at hb; cases hb; exact .refl _⟩
  | map _ m1 m' h1 h2 h3 => exact ⟨m1, m', rfl, h1, h2, h3⟩

/-- Related references, the second one up to the order of map entries. -/
def CarRefP (O S : Schema) (σ : Nat → Nat → Nat) (d : Int) (id : Nat) (p : Bool) (x y0 : Val) : Prop :=
  ∃ y, CarRef O S σ d id p x y ∧ MapPerm y y0 ∧ RefTyped O id p y

/-- The message of a related list element or map value. -/
theorem carRef_round (hS : S.WF) (hO : O.WF) (hV : Grows O S σ) {enc : Nat → Val → Option Bytes} (ih : SubRelay O S σ l enc) {d : Int} {id : Nat} {p : Bool} {x y0 : Val}
    (h : CarRefP O S σ d id p x y0) (hsh : Shown S l id (deref S id p x)) (ht : RefTyped S id p x) {b : Bytes}
    (he : enc id (deref O id p y0) = some b) (hl : b.length < 2 ^ 64) :
    ∃ u, Decodes S d id b (S id).zero u ∧ Same S l id (deref S id p x) u := by
  obtain ⟨y, h, hp, ht'⟩ := h
  cases h with
  | ptr _ _ v w h =>
    cases ht with | ptr _ _ ht =>
    cases ht' with | ptr _ _ ht' =>
    obtain ⟨w0, rfl, hq⟩ := perm_ptr hp
    exact ih d id v w w0 b h hq hsh ht ht' he hl
  | inline _ _ v w h =>
    cases ht with | inline _ _ ht =>
    cases ht' with | inline _ _ ht' =>
    exact ih d id x y y0 b h hp hsh ht ht' he hl
  | nil _ _ hd =>
    cases hp
    exact ih d id _ _ _ b (car_zero hS hO hV hd id) (.refl _) hsh (typed_zero hS id) (typed_zero hO id) he hl

/-- Pairing the elements of a list with the ones written. -/
theorem pair_list {d : Int} {id : Nat} {p : Bool} {zs : List (Val × Val)} {ys0 : List Val}
    (h : ∀ z ∈ zs, CarRef O S σ d id p z.1 z.2) (ht : ∀ y ∈ zs.map (·.2), RefTyped O id p y) (hl : (zs.map (·.2)).length = ys0.length)
    (hp : ∀ (i : Nat) (a b : Val), (zs.map (·.2))[i]? = some a → ys0[i]? = some b → MapPerm a b) :
    ∃ zs' : List (Val × Val), zs.map (·.1) = zs'.map (·.1) ∧ ys0 = zs'.map (·.2) ∧ ∀ z ∈ zs', CarRefP O S σ d id p z.1 z.2 := by
  simp only [List.length_map] at hl
  refine ⟨(zs.map (·.1)).zip ys0, by rw [List.map_fst_zip (by simp; omega)], by rw [List.map_snd_zip (by simp; omega)], fun z hz => ?_⟩
  obtain ⟨i, hi⟩ := List.getElem?_of_mem hz
  rw [List.getElem?_zip_eq_some, List.getElem?_map] at hi
  cases hq : zs[i]? with
  | none => rw [hq] at hi; cases hi.1
  | some q =>
    rw [hq] at hi
    have hm := List.mem_of_getElem? hq
    have h1 : q.1 = z.1 := by simpa using hi.1
    exact ⟨q.2, h1 ▸ h q hm, hp i _ _ (by rw [List.getElem?_map, hq]; rfl) hi.2, ht _ (List.mem_map.2 ⟨q, hm, rfl⟩)⟩

/-- Pairing the entries of a map with the ones written, which may be in another order. -/
theorem pair_map {d : Int} {id : Nat} {p : Bool} {zs : List (Key × Val × Val)} {m1 m0 : List (Key × Val)}
    (h : ∀ z ∈ zs, CarRef O S σ d id p z.2.1 z.2.2) (ht : ∀ e ∈ zs.map (fun z => (z.1, z.2.2)), RefTyped O id p e.2)
    (hm : (zs.map (fun z => (z.1, z.2.2))).Perm m1) (hk : m1.map (·.1) = m0.map (·.1))
    (hp : ∀ (i : Nat) (a b : Key × Val), m1[i]? = some a → m0[i]? = some b → MapPerm a.2 b.2) :
    ∃ zs' : List (Key × Val × Val), (zs.map (fun z => (z.1, z.2.1))).Perm (zs'.map (fun z => (z.1, z.2.1))) ∧
      m0 = zs'.map (fun z => (z.1, z.2.2)) ∧ ∀ z ∈ zs', CarRefP O S σ d id p z.2.1 z.2.2 := by
  obtain ⟨ws, w1, w2⟩ := perm_map_lift (fun z : Key × Val × Val => (z.1, z.2.2)) hm zs rfl
  have hl : ws.length = m0.length := by
    have := congrArg List.length hk
    rw [← w2] at this
    simpa using this
  have key : ∀ (i : Nat) (q : Key × Val × Val) (e : Key × Val), ws[i]? = some q → m0[i]? = some e → q.1 = e.1 := by
    intro i q e hq he
    have := congrArg (fun l => l[i]?) hk
    simp only [← w2, List.getElem?_map, hq, he, Option.map_some] at this
    simpa using this
  refine ⟨(ws.zip m0).map (fun t => (t.1.1, t.1.2.1, t.2.2)), ?_, ?_, fun z hz => ?_⟩
  · have : ((ws.zip m0).map (fun t => (t.1.1, t.1.2.1, t.2.2))).map (fun z : Key × Val × Val => (z.1, z.2.1)) = ws.map (fun z => (z.1, z.2.1)) := by
      conv => rhs; rw [← List.map_fst_zip (l₁ := ws) (l₂ := m0) (by omega)]
      simp [List.map_map, Function.comp_def]
    rw [this]
    exact w1.map _
  · refine List.ext_getElem? (fun i => ?_)
    simp only [List.getElem?_map]
    cases hq : ws[i]? with
    | none =>
      have : m0[i]? = none := by rw [List.getElem?_eq_none_iff] at hq ⊢; omega
      have hz : (ws.zip m0)[i]? = none := by rw [List.getElem?_eq_none_iff] at hq ⊢; simp; omega
      rw [this, hz]; rfl
    | some q =>
      have hi : i < m0.length := by have := (List.getElem?_eq_some_iff.1 hq).1; omega
      have he : m0[i]? = some m0[i] := List.getElem?_eq_getElem hi
      have hz : (ws.zip m0)[i]? = some (q, m0[i]) := by rw [List.getElem?_zip_eq_some]; exact ⟨hq, he⟩
      rw [hz, he]
      simp [key i q _ hq he]
  · obtain ⟨t, ht', rfl⟩ := List.mem_map.1 hz
    obtain ⟨i, hi⟩ := List.getElem?_of_mem ht'
    rw [List.getElem?_zip_eq_some] at hi
    have hq := w1.mem_iff.2 (List.mem_of_getElem? hi.1)
    exact ⟨t.1.2.2, h _ hq, hp i (t.1.1, t.1.2.2) _ (by rw [← w2, List.getElem?_map, hi.1]; rfl) hi.2, ht _ (List.mem_map.2 ⟨_, hq, rfl⟩)⟩

theorem relay_shape (hS : S.WF) (hO : O.WF) (hV : Grows O S σ) {enc : Nat → Val → Option Bytes} (ih : SubRelay O S σ l enc) {d : Int} {sh : Shape} {x y y0 : Val} {num : Nat}
    {a : Bytes} (h1 : 1 ≤ num) (h2 : num < 2 ^ 31) (hl : sh.legal = true) (hk : CarShape O S σ d sh x y) (hp : MapPerm y y0)
    (hsh : ∀ id' v', ShapeSub S sh x id' v' → Shown S l id' v') (ht : ShapeTyped S sh x) (ht' : ShapeTyped O sh y) (he : encodeShape O enc num false sh y0 = some a) (hlen : a.length < 2 ^ 64) :
    ∃ u, Runs S d sh num a (Shape.zero S sh) u ∧ SameShape S l sh x u := by
  cases hk with
  | single _ s =>
    obtain ⟨u, g1, g2⟩ := shape_round (enc := enc) (l := l) hS h1 h2 hl ((permTyped hp).shape _ ht) (fun _ _ _ h => by cases h) he hlen
    exact ⟨u, g1, (permSame hp).2.1 _ _ ht g2⟩
  | optional _ s =>
    obtain ⟨u, g1, g2⟩ := shape_round (enc := enc) (l := l) hS h1 h2 hl ((permTyped hp).shape _ ht) (fun _ _ _ h => by cases h) he hlen
    exact ⟨u, g1, (permSame hp).2.1 _ _ ht g2⟩
  | list _ s =>
    obtain ⟨u, g1, g2⟩ := shape_round (enc := enc) (l := l) hS h1 h2 hl ((permTyped hp).shape _ ht) (fun _ _ _ h => by cases h) he hlen
    exact ⟨u, g1, (permSame hp).2.1 _ _ ht g2⟩
  | map _ s =>
    obtain ⟨u, g1, g2⟩ := shape_round (enc := enc) (l := l) hS h1 h2 hl ((permTyped hp).shape _ ht) (fun _ _ _ h => by cases h) he hlen
    exact ⟨u, g1, (permSame hp).2.1 _ _ ht g2⟩
  | nilPtr _ id => cases hp; cases he; exact ⟨_, .nil _, .noMsg _⟩
  | ptr _ id v w h =>
    obtain ⟨w0, rfl, hq⟩ := perm_ptr hp
    obtain ⟨b, hb, he⟩ := bind_some_eq he
    cases he
    simp only [List.length_append] at hlen
    have hb' := lenDelim_lt (p := b) (by omega)
    cases ht with | msg _ _ _ ht =>
    cases ht with | ptr _ _ ht =>
    cases ht' with | msg _ _ _ ht' =>
    cases ht' with | ptr _ _ ht' =>
    obtain ⟨u, g1, g2⟩ := ih (d - 1) id v w w0 b h hq (hsh _ _ (.ptr _ _)) ht ht' hb hb'
    exact ⟨_, .one h1 h2 (.msgPtr _ _ _ _ _ _ (isLen_lenDelim hb') g1), .msgPtr _ _ _ g2⟩
  | msgList _ id p xs ys zs e1 e2 h =>
    subst e1 e2
    rename List (Val × Val) => zs0
    cases ht with | msgList _ _ _ hx =>
    cases ht' with | msgList _ _ _ hx' =>
    obtain ⟨ys0, rfl, hp1, hp2⟩ := perm_slice hp
    obtain ⟨zs, ex, rfl, h⟩ := pair_list h hx' hp1 hp2
    rw [ex] at hx hsh ⊢
    have he' : concatM (fun z : Val × Val => do return tag num .len ++ lenDelim (← enc id (deref O id p z.2))) zs = some a := by
      rw [← concatM_map (fun v => do return tag num .len ++ lenDelim (← enc id (deref O id p v))) (fun z : Val × Val => z.2) zs]
      exact he
    have := runs_concat (S := S) (d := d) (sh := .msgList id p) (num := num) (R := fun (z : Val × Val) y => Same S l id (deref S id p z.1) (deref S id p y))
      (g := fun z : Val × Val => do return tag num .len ++ lenDelim (← enc id (deref O id p z.2))) (xs := zs) .slice (fun pre z post acc a hxs hz hg ha => by
          obtain ⟨b, hb, hg⟩ := bind_some_eq hg
          cases hg
          simp only [List.length_append] at ha
          have hb' := lenDelim_lt (p := b) (by omega)
          have hz : z ∈ zs := by rw [hxs]; simp
          obtain ⟨w, g1, g2⟩ := carRef_round hS hO hV ih (h z hz) (hsh _ _ (.list _ _ _ _ (List.mem_map.2 ⟨z, hz, rfl⟩))) (hx _ (List.mem_map.2 ⟨z, hz, rfl⟩)) hb hb'
          cases p with
          | true => exact ⟨.ptr (some w), g2, .one h1 h2 (.msgElemPtr _ _ _ _ _ _ (isLen_lenDelim hb') g1)⟩
          | false => exact ⟨w, g2, .one h1 h2 (.msgElemInline _ _ _ _ _ _ (isLen_lenDelim hb') g1)⟩) zs [] [] a rfl Zip.nil he' hlen
    obtain ⟨us, g1, g2⟩ := this
    refine ⟨_, g2, .msgList _ _ _ _ (by simpa using g1.1) (fun i x y hx hy => ?_)⟩
    rw [List.getElem?_map] at hx
    cases hz : zs[i]? with
    | none => rw [hz] at hx; cases hx
    | some z => rw [hz] at hx; cases hx; exact g1.2 i z y hz hy
  | nilMap _ k id p =>
    cases hp
    cases he
    exact ⟨_, .nil _, .mapMsg _ _ _ _ none _ (.refl _) rfl (fun i e e' h _ => by simp at h)⟩
  | mapMsg _ k id p m m' zs e1 e2 h =>
    subst e1 e2
    rename List (Key × Val × Val) => zs0
    cases ht with | mapMsg _ _ _ _ hn hk hm =>
    cases ht' with | mapMsg _ _ _ _ hn' hk' hm' =>
    obtain ⟨m1, m0, rfl, hp1, hp2, hp3⟩ := perm_map hp
    obtain ⟨zs, ex, rfl, h⟩ := pair_map h hm' hp1 hp2 hp3
    have hn : ((zs.map (fun z => (z.1, z.2.1))).map (·.1)).Nodup := (ex.map _).nodup_iff.1 hn
    have hk := fun e (he : e ∈ zs.map (fun z => (z.1, z.2.1))) => hk e (ex.mem_iff.2 he)
    have hm := fun e (he : e ∈ zs.map (fun z => (z.1, z.2.1))) => hm e (ex.mem_iff.2 he)
    have hkb : k ≠ .bytes := by rintro rfl; cases hl
    have he' : concatM (fun z : Key × Val × Val => do
        let a ← k.encode z.1.toVal
        let b ← enc id (deref O id p z.2.2)
        return tag num .len ++ lenDelim (tag 1 k.wire ++ a ++ (tag 2 .len ++ lenDelim b))) zs = some a := by
      rw [← concatM_map (fun e : Key × Val => do
        let a ← k.encode e.1.toVal
        let b ← enc id (deref O id p e.2)
        return tag num .len ++ lenDelim (tag 1 k.wire ++ a ++ (tag 2 .len ++ lenDelim b))) (fun z : Key × Val × Val => (z.1, z.2.2)) zs]
      exact he
    have fresh : ∀ {pre post : List (Key × Val × Val)} {z : Key × Val × Val} {acc : List (Key × Val)}, zs = pre ++ z :: post →
        Zip (fun (z : Key × Val × Val) (b : Key × Val) => z.1 = b.1 ∧ Same S l id (deref S id p z.2.1) (deref S id p b.2)) pre acc →
        z.1 ∉ acc.map (·.1) := by
      intro pre post z acc hxs hz
      refine fresh_key (R := fun a b : Key × Val => a.1 = b.1) (fun _ _ h => h) hn (pre := pre.map (fun z => (z.1, z.2.1)))
        (post := post.map (fun z => (z.1, z.2.1))) (e := (z.1, z.2.1)) (by rw [hxs]; simp) ⟨by simpa using hz.1, fun i a b ha hb => ?_⟩
      rw [List.getElem?_map] at ha
      cases hp : pre[i]? with
      | none => rw [hp] at ha; cases ha
      | some q => rw [hp] at ha; cases ha; exact (hz.2 i q b hp hb).1
    have := runs_concat (S := S) (d := d) (sh := .mapMsg k id p) (num := num)
      (R := fun (z : Key × Val × Val) (b : Key × Val) => z.1 = b.1 ∧ Same S l id (deref S id p z.2.1) (deref S id p b.2))
      (g := fun z : Key × Val × Val => do
        let a ← k.encode z.1.toVal
        let b ← enc id (deref O id p z.2.2)
        return tag num .len ++ lenDelim (tag 1 k.wire ++ a ++ (tag 2 .len ++ lenDelim b))) (xs := zs) conMap (fun pre e post acc a hxs hz hg ha => by
          obtain ⟨kb, hkb', hg⟩ := bind_some_eq hg
          obtain ⟨b, hb, hg⟩ := bind_some_eq hg
          cases hg
          simp only [List.length_append] at ha
          have hp := lenDelim_lt (p := tag 1 k.wire ++ kb ++ (tag 2 .len ++ lenDelim b)) (by omega)
          have hp' := hp
          simp only [List.length_append] at hp'
          have hb' := lenDelim_lt (p := b) (by omega)
          have hem : e ∈ zs := by rw [hxs]; simp
          obtain ⟨y, g1, -, g3, -⟩ := scalarDec_encode false (hk _ (List.mem_map.2 ⟨e, hem, rfl⟩)) hkb' (by omega)
          rw [g3 hkb] at g1
          obtain ⟨w, q1, q2⟩ := carRef_round hS hO hV ih (h e hem) (hsh _ _ (.map _ _ _ _ (e.1, e.2.1) (ex.mem_iff.2 (List.mem_map.2 ⟨e, hem, rfl⟩)))) (hm _ (List.mem_map.2 ⟨e, hem, rfl⟩)) hb hb'
          cases p with
          | true =>
            refine ⟨(e.1, .ptr (some w)), ⟨rfl, q2⟩, .one h1 h2 ?_⟩
            have := DecShape.entryPtr (S := S) d k id _ kb _ [] b (if acc.isEmpty then none else some acc) e.1 w
              (by rw [List.append_nil]; exact isLen_lenDelim hp) g1 (isLen_lenDelim hb') q1
            rw [conMap_getD, putEntry_fresh (fresh hxs hz)] at this
            rw [conMap_snoc]
            exact this
          | false =>
            refine ⟨(e.1, w), ⟨rfl, q2⟩, .one h1 h2 ?_⟩
            have := DecShape.entryInline (S := S) d k id _ kb _ [] b (if acc.isEmpty then none else some acc) e.1 w
              (by rw [List.append_nil]; exact isLen_lenDelim hp) g1 (isLen_lenDelim hb') q1
            rw [conMap_getD, putEntry_fresh (fresh hxs hz)] at this
            rw [conMap_snoc]
            exact this) zs [] [] a rfl Zip.nil he' hlen
    obtain ⟨us, g1, g2⟩ := this
    have gz : Zip (fun a b : Key × Val => a.1 = b.1 ∧ Same S l id (deref S id p a.2) (deref S id p b.2))
        (zs.map (fun z => (z.1, z.2.1))) us := by
      refine ⟨by simpa using g1.1, fun i a b ha hb => ?_⟩
      rw [List.getElem?_map] at ha
      cases hp : zs[i]? with
      | none => rw [hp] at ha; cases ha
      | some q => rw [hp] at ha; cases ha; exact g1.2 i q b hp hb
    refine ⟨_, g2, .mapMsg _ _ _ _ (some (zs.map (fun z : Key × Val × Val => (z.1, z.2.1)))) _ ex ?_ ?_⟩
    · rw [conMap_getD]; exact zip_keys (fun _ _ h => h.1) gz
    · rw [conMap_getD]; exact fun i e e' he he' => (gz.2 i e e' he he').2

theorem relay_member {enc : Nat → Val → Option Bytes} (ih : SubRelay O S σ l enc) {d : Int} {sh : Shape} {x y y0 : Val} {num : Nat}
    {a : Bytes} (h1 : 1 ≤ num) (h2 : num < 2 ^ 31) (hs : (∃ s, sh = .single s) ∨ (∃ id p, sh = .msg id p)) (hk : CarShape O S σ d sh x y)
    (hp : MapPerm y y0) (hsh : ∀ id' v', ShapeSub S sh x id' v' → Shown S l id' v') (ht : ShapeTyped S sh x) (ht' : ShapeTyped O sh y) (hc : recordCount S sh x ≠ 0)
    (he : encodeShape O enc num false sh y0 = some a) (hlen : a.length < 2 ^ 64) :
    ∃ u, OneRun S d sh num a u ∧ SameShape S l sh x u := by
  cases hk with
  | single _ s =>
    have : y0 = x := by
      cases ht with
      | single _ _ h => exact scalar_perm h hp
    subst this
    exact member_round (enc := enc) h1 h2 hs ht (fun _ _ _ h => by cases h) hc he hlen
  | nilPtr _ id => simp [recordCount] at hc
  | ptr _ id v w h =>
    obtain ⟨w0, rfl, hq⟩ := perm_ptr hp
    obtain ⟨b, hb, he⟩ := bind_some_eq he
    cases he
    simp only [List.length_append] at hlen
    have hb' := lenDelim_lt (p := b) (by omega)
    cases ht with | msg _ _ _ ht =>
    cases ht with | ptr _ _ ht =>
    cases ht' with | msg _ _ _ ht' =>
    cases ht' with | ptr _ _ ht' =>
    obtain ⟨u, g1, g2⟩ := ih (d - 1) id v w w0 b h hq (hsh _ _ (.ptr _ _)) ht ht' hb hb'
    exact ⟨_, .tag h1 h2 (.msgPtr _ _ _ _ _ _ (isLen_lenDelim hb') g1), .msgPtr _ _ _ g2⟩
  | optional => rcases hs with ⟨s, h⟩ | ⟨_, _, h⟩ <;> cases h
  | list => rcases hs with ⟨s, h⟩ | ⟨_, _, h⟩ <;> cases h
  | map => rcases hs with ⟨s, h⟩ | ⟨_, _, h⟩ <;> cases h
  | msgList => rcases hs with ⟨s, h⟩ | ⟨_, _, h⟩ <;> cases h
  | nilMap => rcases hs with ⟨s, h⟩ | ⟨_, _, h⟩ <;> cases h
  | mapMsg => rcases hs with ⟨s, h⟩ | ⟨_, _, h⟩ <;> cases h

theorem car_count {d : Int} {sh : Shape} {x y : Val} (hs : (∃ s, sh = .single s) ∨ (∃ id p, sh = .msg id p))
    (hk : CarShape O S σ d sh x y) : recordCount O sh y = recordCount S sh x := by
  cases hk with
  | single => rfl
  | nilPtr => rfl
  | ptr => rfl
  | optional => rcases hs with ⟨s, h⟩ | ⟨_, _, h⟩ <;> cases h
  | list => rcases hs with ⟨s, h⟩ | ⟨_, _, h⟩ <;> cases h
  | map => rcases hs with ⟨s, h⟩ | ⟨_, _, h⟩ <;> cases h
  | msgList => rcases hs with ⟨s, h⟩ | ⟨_, _, h⟩ <;> cases h
  | nilMap => rcases hs with ⟨s, h⟩ | ⟨_, _, h⟩ <;> cases h
  | mapMsg => rcases hs with ⟨s, h⟩ | ⟨_, _, h⟩ <;> cases h

/-- The contents of a field both know. -/
theorem carField_content {d : Int} {f : Field} {x y : Val} (h : CarField O S σ d f x y) :
    (f.content x = none ∧ f.content y = none) ∨ ∃ a b, f.content x = some a ∧ f.content y = some b ∧ CarShape O S σ d f.shape a b := by
  cases h with
  | plain _ _ _ _ hm h => exact .inr ⟨x, y, by simp [Field.content, hm], by simp [Field.content, hm], h⟩
  | unset _ _ hm =>
    cases hm' : f.member with
    | none => exact absurd hm' hm
    | some w => exact .inl ⟨by simp [Field.content, hm'], by simp [Field.content, hm']⟩
  | set _ _ w a b hm h => exact .inr ⟨a, b, by simp [Field.content, hm], by simp [Field.content, hm], h⟩
  | other _ _ w w' a b hm hn =>
    have : ¬ w = w' := fun h => hn h.symm
    exact .inl ⟨by simp [Field.content, hm, this], by simp [Field.content, hm, this]⟩
  | nilCase _ _ w' hm =>
    cases hm' : f.member with
    | none => exact absurd hm' hm
    | some w => exact .inl ⟨by simp [Field.content, hm'], by simp [Field.content, hm']⟩

/-- Like `mid_set`, for fields in any order. -/
theorem mid_put {l : Bool} (hW : S.WF) {id : Nat} {xs ys : List Val} {pre post : List Field} {f : Field} (hf : f ∈ (S id).fields)
    (npre : ∀ g ∈ pre, g ∈ (S id).fields ∧ f.num ≠ g.num) (npost : ∀ g ∈ post, g ∈ (S id).fields ∧ f.num ≠ g.num)
    (h : Mid S l id xs pre (f :: post) ys) {x d y e : Val} (hx : xs[f.slot]? = some x) (hc : f.content x = some d)
    (he : f.content y = some e) (hs : SameShape S l f.shape d e) : Mid S l id xs (pre ++ [f]) post (ys.set f.slot y) := by
  have hlt : f.slot < ys.length := by rw [h.len]; exact (hW id).slots f hf
  refine ⟨by rw [List.length_set]; exact h.len, fun g hg x' y' hx' hy' => ?_, fun g hg x' hx' hc' => ?_, fun g hg x' y' hx' hc' hy' => ?_, ?_⟩
  · rcases List.mem_append.1 hg with hg | hg
    · by_cases hsl : f.slot = g.slot
      · obtain ⟨hgf, hnn⟩ := npre g hg
        rw [← hsl] at hx' hy'
        rw [hx] at hx'; cases hx'
        rw [List.getElem?_set_self hlt] at hy'
        cases hy'
        exact .unset _ _ _ (content_excl hW hf hgf hnn hsl hc) (content_excl hW hf hgf hnn hsl he)
      · rw [List.getElem?_set_ne hsl] at hy'
        exact h.done g hg x' y' hx' hy'
    · simp only [List.mem_singleton] at hg
      subst hg
      rw [hx] at hx'; cases hx'
      rw [List.getElem?_set_self hlt] at hy'
      cases hy'
      exact .set _ _ _ _ _ hc he hs
  · obtain ⟨hgf, hnn⟩ := npost g hg
    by_cases hsl : f.slot = g.slot
    · rw [← hsl, hx] at hx'; cases hx'
      exact absurd (content_excl hW hf hgf hnn hsl hc) hc'
    · rw [List.getElem?_set_ne hsl]
      exact h.todo g (by simp [hg]) x' hx' hc'
  · obtain ⟨hgf, hnn⟩ := npost g hg
    by_cases hsl : f.slot = g.slot
    · rw [← hsl, List.getElem?_set_self hlt] at hy'
      cases hy'
      exact content_excl hW hf hgf hnn hsl he
    · rw [List.getElem?_set_ne hsl] at hy'
      exact h.unset g (by simp [hg]) x' y' hx' hc' hy'
  · rw [unknownOf_set (fun s p hu => unknown_ne_slot hW hf s p hu)]
    exact h.unknown

section
variable (hS : S.WF) (hO : O.WF) (hV : Grows O S σ)
include hS hO hV

/-- The fields the older version knows, one after the other. -/
theorem relay_fields {id : Nat} {xs ys ys0 : List Val} {d : Int} {enc : Nat → Val → Option Bytes}
    (hc : Car O S σ d id (.struct xs) (.struct ys)) (hv : Typed S id (.struct xs)) (hw : Typed O id (.struct ys))
    (hpl : ys.length = ys0.length) (hp : ∀ (i : Nat) (a b : Val), ys[i]? = some a → ys0[i]? = some b → MapPerm a b)
    (hm : l = false → MembersShown S id (.struct xs))
    (hsh : ∀ f ∈ (S id).fields, ∀ x e, xs[f.slot]? = some x → f.content x = some e → ∀ id' v', ShapeSub S f.shape e id' v' → Shown S l id' v')
    (ih : SubRelay O S σ l enc) :
    ∀ (post pre : List Field) (us : List Val) (a : Bytes), (∀ f ∈ pre ++ post, f ∈ (S id).fields ∧ Known O σ id f) →
      (pre ++ post).Pairwise (fun f g => f.num < g.num) → Mid S l id xs pre post us →
      concatM (encodeField O false enc ys0) (post.map (fun f => f.at (σ id f.slot))) = some a → a.length < 2 ^ 64 →
      ∃ zs, Mid S l id xs (pre ++ post) [] zs ∧ (∀ f ∈ (S id).fields, ¬ Known O σ id f → zs[f.slot]? = us[f.slot]?) ∧
        ∀ rest ws, DecRecs S d id rest zs ws → DecRecs S d id (a ++ rest) us ws
  | [], pre, us, a, _, _, hmid, hc, hl => by
    cases hc
    rw [List.append_nil]
    exact ⟨us, hmid, fun _ _ _ => rfl, fun _ _ h => h⟩
  | f :: post, pre, us, a, hsub, hso, hmid, he, hl => by
    simp only [concatM, List.map_cons] at he
    obtain ⟨b, hb, he⟩ := bind_some_eq he
    obtain ⟨c, hcc, he⟩ := bind_some_eq he
    cases he
    simp only [List.length_append] at hl
    obtain ⟨hf, hk⟩ := hsub f (by simp)
    obtain ⟨s1, s2, s3⟩ := List.pairwise_append.1 hso
    have npre : ∀ g ∈ pre, g ∈ (S id).fields ∧ f.num ≠ g.num := fun g hg =>
      ⟨(hsub g (by simp [hg])).1, by have := s3 g hg f (by simp); omega⟩
    have npost : ∀ g ∈ post, g ∈ (S id).fields ∧ f.num ≠ g.num := fun g hg =>
      ⟨(hsub g (by simp [hg])).1, by have := (List.pairwise_cons.1 s2).1 g hg; omega⟩
    obtain ⟨x, hx, hft⟩ := typed_slot hS hv hf
    obtain ⟨y, hy, hft'⟩ := typed_slot hO hw hk
    have hy : ys[σ id f.slot]? = some y := hy
    obtain ⟨y0, hy0⟩ : ∃ y0, ys0[σ id f.slot]? = some y0 := by
      have := (List.getElem?_eq_some_iff.1 hy).1
      exact ⟨_, List.getElem?_eq_getElem (by omega)⟩
    have hpy := hp _ _ _ hy hy0
    have next : ∀ us', Mid S l id xs (pre ++ [f]) post us' →
        (∀ g ∈ (S id).fields, ¬ Known O σ id g → us'[g.slot]? = us[g.slot]?) →
        (∀ rest ws, DecRecs S d id rest us' ws → DecRecs S d id (b ++ rest) us ws) →
        ∃ zs, Mid S l id xs (pre ++ f :: post) [] zs ∧ (∀ g ∈ (S id).fields, ¬ Known O σ id g → zs[g.slot]? = us[g.slot]?) ∧
          ∀ rest ws, DecRecs S d id rest zs ws → DecRecs S d id (b ++ c ++ rest) us ws := by
      intro us' hm' hrem hstep
      obtain ⟨zs, z1, z2, z3⟩ := relay_fields hc hv hw hpl hp hm hsh ih post (pre ++ [f]) us' c (by simpa using hsub) (by simpa using hso) hm' hcc (by omega)
      refine ⟨zs, by simpa using z1, fun g hg hn => (z2 g hg hn).trans (hrem g hg hn), fun rest ws hr => ?_⟩
      rw [List.append_assoc]
      exact hstep _ _ (z3 rest ws hr)
    have hrem : ∀ u : Val, ∀ g ∈ (S id).fields, ¬ Known O σ id g → (us.set f.slot u)[g.slot]? = us[g.slot]? :=
      fun u g hg hn => List.getElem?_set_ne (hV.oneofs id f hf g hg hk hn)
    have hcf : CarField O S σ d f x y := by
      cases hc with
      | mk _ _ _ _ _ _ _ h => exact h f hf hk x y hx hy
    simp only [encodeField, Field.at, hy0] at hb
    have hcon : ∀ v, Field.content { f with slot := σ id f.slot } v = f.content v := fun v => rfl
    rcases carField_content hcf with ⟨c1, c2⟩ | ⟨e, e', c1, c2, c3⟩
    · have c2 : f.content y0 = none := by
        rcases content_perm (f := f) hpy with ⟨_, h⟩ | ⟨_, _, h, _⟩
        · exact h
        · rw [c2] at h; cases h
      simp only [bind, Option.bind_some, hcon, c2] at hb
      cases hb
      exact next us (mid_skip hmid hx c1) (fun _ _ _ => rfl) (fun _ _ h => h)
    · obtain ⟨e0, c20, hpe⟩ : ∃ e0, f.content y0 = some e0 ∧ MapPerm e' e0 := by
        rcases content_perm (f := f) hpy with ⟨h, _⟩ | ⟨a, b, h, h', hab⟩
        · rw [c2] at h; cases h
        · rw [c2] at h; cases h; exact ⟨b, h', hab⟩
      simp only [bind, Option.bind_some, hcon, c20] at hb
      simp only [Bool.and_false] at hb
      have hst := content_typed hft c1
      have hst' : ShapeTyped O f.shape e' := content_typed (f := f.at (σ id f.slot)) hft' c2
      obtain ⟨n1, n2⟩ := (hS id).nums f hf
      have hz := hmid.todo f (by simp) x hx (by rw [c1]; simp)
      cases hmem : f.member with
      | none =>
        obtain ⟨u, r1, r2⟩ := relay_shape hS hO hV ih n1 n2 ((hS id).legal f hf) c3 hpe (hsh f hf x e hx c1) hst hst' hb (by omega)
        have hfz : f.zero S = Shape.zero S f.shape := by simp only [Field.zero, hmem, Shape.zero]
        rw [hfz] at hz
        exact next _ (mid_put hS hf npre npost hmid hx c1 (y := u) (e := u) (by simp [Field.content, hmem]) r2) (hrem u)
          (fun rest ws hr => runs_plain hf hmem rfl r1 hz hr)
      | some w =>
        have hms := (hS id).members f hf (by rw [hmem]; simp)
        have hfz : f.zero S = .iface none := by simp only [Field.zero, hmem]
        rw [hfz] at hz
        by_cases hrc : recordCount S f.shape e = 0
        · have hb0 : b = [] := encodeShape_nil hms ((permTyped hpe).shape _ hst') (by rw [← recordCount_perm hst' hpe, car_count hms c3]; exact hrc) hb
          subst hb0
          have hlo : l = true := by
            cases l with
            | true => rfl
            | false => exact absurd hrc (hm rfl xs rfl f hf (by rw [hmem]; simp) x e hx c1)
          exact next us (mid_lost hlo hmid hx (by rw [hmem]; simp) c1 hrc) (fun _ _ _ => rfl) (fun _ _ h => h)
        obtain ⟨u, q1, q2⟩ := relay_member ih n1 n2 hms c3 hpe (hsh f hf x e hx c1) hst hst' hrc hb (by omega)
        exact next _ (mid_put hS hf npre npost hmid hx c1 (y := .iface (some (w, some u))) (e := u) (by simp [Field.content, hmem]) q2) (hrem _)
          (fun rest ws hr => runs_member hf hmem q1 hz hr)

omit hO hV in
/-- Records that only touch some Go struct fields act alike on values that agree in those. -/
theorem steps_onto {d : Int} {id : Nat} (P : Nat → Prop) :
    ∀ (rs : List Rec) (zs xs us : List Val), Steps S d id rs zs xs → zs.length = (S id).nslots → us.length = (S id).nslots →
    (∀ r ∈ rs, ∀ g ∈ (S id).fields, g.num = r.num → P g.slot) → (∀ f ∈ (S id).fields, P f.slot → us[f.slot]? = zs[f.slot]?) →
    unknownOf (S id) us = unknownOf (S id) zs →
    ∃ ws, Steps S d id rs us ws ∧ ws.length = (S id).nslots ∧ (∀ f ∈ (S id).fields, P f.slot → ws[f.slot]? = xs[f.slot]?) ∧
      (∀ f ∈ (S id).fields, ¬ P f.slot → ws[f.slot]? = us[f.slot]?) ∧ unknownOf (S id) ws = unknownOf (S id) xs
  | [], zs, xs, us, h, hz, hu, _, hp, hk => by
    cases h
    exact ⟨us, rfl, hu, hp, fun _ _ _ => rfl, hk⟩
  | r :: rs, zs, xs, us, ⟨zs1, h1, h2⟩, hz, hu, hr, hp, hk => by
    have hr' : ∀ r' ∈ rs, ∀ g ∈ (S id).fields, g.num = r'.num → P g.slot := fun r' h => hr r' (by simp [h])
    rcases h1 with ⟨a1, a2, rfl⟩ | ⟨g, hg, a0, x, y, a1, a2, rfl⟩
    · have hus : ∀ s p, (S id).unknown = some (s, p) → s < us.length := fun s p h => hu ▸ ((hS id).unknown s p h).1
      have hzs : ∀ s p, (S id).unknown = some (s, p) → s < zs.length := fun s p h => hz ▸ ((hS id).unknown s p h).1
      have e1 : ∀ (ts : List Val) f, f ∈ (S id).fields → (addUnknown (S id) ts r.raw)[f.slot]? = ts[f.slot]? := fun ts f hf =>
        ((agree_add (S id) ts r.raw).2 _ (slot_known hS hf)).symm
      obtain ⟨ws, w1, w2, w3, w4, w5⟩ := steps_onto P rs _ xs (addUnknown (S id) us r.raw) h2 (by rw [addUnknown_length]; exact hz)
        (by rw [addUnknown_length]; exact hu) hr' (fun f hf hP => by rw [e1 _ f hf, e1 _ f hf]; exact hp f hf hP)
        (by rw [unknownOf_add hus, unknownOf_add hzs, hk])
      exact ⟨ws, ⟨_, .inl ⟨a1, a2, rfl⟩, w1⟩, w2, w3, fun f hf hP => by rw [w4 f hf hP, e1 _ f hf], w5⟩
    · have hPg := hr r (by simp) g hg a0
      obtain ⟨ws, w1, w2, w3, w4, w5⟩ := steps_onto P rs _ xs (us.set g.slot y) h2 (by simpa using hz) (by simpa using hu) hr'
        (fun f hf hP => by rw [List.getElem?_set, List.getElem?_set, hz, hu, hp f hf hP])
        (by rw [unknownOf_set (unknown_ne_slot hS hg), unknownOf_set (unknown_ne_slot hS hg)]; exact hk)
      refine ⟨ws, ⟨_, .inr ⟨g, hg, a0, x, y, by rw [hp g hg hPg]; exact a1, a2, rfl⟩, w1⟩, w2, w3, fun f hf hP => ?_, w5⟩
      rw [w4 f hf hP, List.getElem?_set_ne (fun e : g.slot = f.slot => hP (e ▸ hPg))]

omit hS hO in
/-- The known fields, in the order of the older version. -/
theorem older_fields (id : Nat) : ∃ fs : List Field, (O id).fields = fs.map (fun f => f.at (σ id f.slot)) ∧
    ∀ f ∈ fs, f ∈ (S id).fields := by
  have : ∀ (gs : List Field), (∀ g ∈ gs, g ∈ (O id).fields) → ∃ fs : List Field, gs = fs.map (fun f => f.at (σ id f.slot)) ∧
      ∀ f ∈ fs, f ∈ (S id).fields := by
    intro gs
    induction gs with
    | nil => exact fun _ => ⟨[], rfl, by simp⟩
    | cons g gs ih =>
      intro h
      obtain ⟨fs, e, h1⟩ := ih (fun g hg => h g (by simp [hg]))
      obtain ⟨f, hf, e'⟩ := hV.older.fields id g (h g (by simp))
      refine ⟨f :: fs, by simp [e, e'], fun f' hf' => ?_⟩
      rcases List.mem_cons.1 hf' with rfl | hf'
      · exact hf
      · exact h1 f' hf'
  exact this _ (fun _ h => h)

/-- A message written by the older version and read by the newer one. -/
theorem relay_msg : ∀ (n : Nat), SubRelay O S σ l (encode O false n)
  | 0, d, id, v, w, w0, bs, _, _, _, _, _, he, _ => by cases he
  | n + 1, d, id, v, w, w0, bs, hc, hp, hsh, hv, hw, he, hl => by
    cases hc with
    | mk _ _ xs ys hd h1 h2 h3 h4 =>
    have hc : Car O S σ d id (.struct xs) (.struct ys) := .mk _ _ _ _ hd h1 h2 h3 h4
    obtain ⟨ys0, rfl, hp1, hp2⟩ := perm_struct hp
    have hun : unknownOf (O id) ys = unknownOf (O id) ys0 :=
      unknown_perm (by cases hw with | mk _ _ _ _ hu => exact hu) hp1 hp2
    obtain ⟨a, ha, he⟩ := bind_some_eq he
    cases he
    rw [← hun] at hl ⊢
    simp only [List.length_append] at hl
    obtain ⟨zs0, q1, _⟩ := (hS id).zero
    obtain ⟨c1, c2, c3, c4⟩ := zero_slots hS q1
    rw [q1]
    obtain ⟨fs, e1, e2⟩ := older_fields hV id
    have hkn : ∀ f ∈ fs, Known O σ id f := fun f hf => by
      unfold Known; rw [e1]; exact List.mem_map.2 ⟨f, hf, rfl⟩
    have hall : ∀ f ∈ (S id).fields, Known O σ id f → f ∈ fs := by
      intro f hf hk
      unfold Known at hk
      rw [e1] at hk
      obtain ⟨f', hf', e⟩ := List.mem_map.1 hk
      have : (f'.at (σ id f'.slot)).num = (f.at (σ id f.slot)).num := by rw [e]
      rw [← fields_num_inj (hS id) (e2 f' hf') hf this]
      exact hf'
    have hso : fs.Pairwise (fun f g => f.num < g.num) := by
      have := (hO id).sorted
      rw [e1, List.pairwise_map] at this
      exact this
    have hmid : Mid S l id xs [] fs zs0 := by
      refine ⟨c3, (fun g hg => by cases hg), fun g hg _ _ _ => c4 g (e2 g hg), fun g hg x y hx hc hy => ?_, c2⟩
      rw [c4 g (e2 g hg)] at hy
      cases hy
      cases hm : g.member with
      | none => simp [Field.content, hm] at hc
      | some w => simp only [Field.zero, Field.content, hm]
    rw [e1] at ha
    obtain ⟨us, m1, m2, m3⟩ := relay_fields hS hO hV hc hv hw hp1 hp2 (fun h => hsh h _ _ (.refl _ _))
      (fun f hf x e hx hc id' v' hs h i u hr => hsh h i u (.step _ _ _ _ _ _ (.mk _ _ f _ _ hf ⟨x, e, hx, hc, hs⟩) hr)) (relay_msg n) fs [] zs0 a
      (fun f hf => ⟨e2 f (by simpa using hf), hkn f (by simpa using hf)⟩) (by simpa using hso) hmid ha (by omega)
    obtain ⟨rs, zs, b1, b2, b3, b4, b5, b6, b7⟩ := h4
    obtain ⟨ws, w1, w2, w3, w4, w5⟩ := steps_onto hS (fun i => ∃ f ∈ (S id).fields, ¬ Known O σ id f ∧ f.slot = i) rs zs xs us b3 b4 m1.len
      (fun r hr g hg e => ⟨g, hg, fun hk => b2 r hr _ hk e, rfl⟩)
      (fun f hf ⟨f', hf', hk, e⟩ => by rw [← e, m2 f' hf' hk, c4 f' hf', b6 f' hf' hk])
      (by rw [m1.unknown, b7])
    refine ⟨.struct ws, .mk _ _ _ _ _ hd ?_, .mk _ _ _ h1 w2 (fun f hf x y hx hy => ?_) w5.symm⟩
    · rw [c1]
      exact m3 _ _ (steps_decRecs b1 w1)
    · by_cases hk : Known O σ id f
      · rw [w4 f hf (fun ⟨f', hf', hk', e⟩ => hV.oneofs id f hf f' hf' hk hk' e.symm)] at hy
        exact m1.done f (by simpa using hall f hf hk) x y hx hy
      · rw [w3 f hf ⟨f, hf, hk, rfl⟩, hx] at hy
        cases hy
        cases hv with
        | mk _ _ _ t2 _ => exact sameField_self hS (t2 f hf x hx)

end

end Verif.Lemmas
