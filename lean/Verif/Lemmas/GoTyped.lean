import Verif.Lemmas.RegularSchema
/-! Helper lemmas: Go values of accepted struct types with ordinary fields are values of the schema. -/
namespace Verif.Lemmas
open Verif.Model Verif.Spec

theorem holds_scalar {t : GoType} {v : Val} (h : t.holds v = true) : isBasic t = true := by
  cases t <;> cases v <;> first | (cases h; done) | rfl

theorem shape_basic {S : Schema} {sh : Shape} {t : GoType} {v : Val} (e : sh.goType = t) (h : t.holds v = true) : ShapeTyped S sh v := by
  have hb := holds_scalar h
  rcases shape_member e (.inl hb) with ⟨sc, rfl⟩ | ⟨id, p, rfl⟩
  · exact .single sc v (by rw [show sc.goType = t from e]; exact h)
  · have : t = msgType id p := e.symm
    rw [this] at hb; cases p <;> cases hb

/-- What a slot holds. -/
def SlotSpec (S : Schema) (d : StructDecl) (t : GoType) (x : Val) : Prop :=
  (t ≠ .iface → ∀ sh : Shape, sh.goType = t → ShapeTyped S sh x) ∧
  (t = .iface → x = .iface none ∨ (∃ w, x = .iface (some (w, none))) ∨
    ∃ w y, x = .iface (some (w, some y)) ∧ ∀ wr ∈ d.wrappers, wr.id = w → ∀ gf : GoField, wr.fields = [gf] →
      ∀ sh : Shape, sh.goType = gf.type → ShapeTyped S sh y)

theorem shape_of_ref {S : Schema} {sh : Shape} {t : GoType} {v : Val}
    (e : sh.goType = .ptr t) (h1 : ∀ sh : Shape, sh.goType = t → ShapeTyped S sh v) (h2 : ∀ id, t = .struct id → Typed S id v) :
    ShapeTyped S sh (.ptr (some v)) := by
  cases sh with
  | single sc => cases sc <;> cases e
  | optional sc =>
    injection e with e
    cases h1 (.single sc) e with
    | single _ _ h => exact .optional sc v h
  | list sc p => cases e
  | msg id p =>
    cases p with
    | true => injection e with e; exact .msg id true _ (.ptr id v (h2 id e.symm))
    | false => cases e
  | msgList id p => cases e
  | map k v => cases e
  | mapMsg k id p => cases e

theorem ref_of_shape {S : Schema} {id : Nat} {p : Bool} {v : Val} (h : ShapeTyped S (.msg id p) v) : RefTyped S id p v := by
  cases h with
  | msg _ _ _ h => exact h

theorem goTyped_shape {env : GoEnv} {D : Descs} (hr : Regular env) (hd : parseDescs env = .ok D) {t : GoType} {v : Val}
    (h : GoTyped env t v) :
    (∀ sh : Shape, sh.goType = t → ShapeTyped (regSchema env D) sh v) ∧ (∀ id, t = .struct id → Typed (regSchema env D) id v) := by
  refine GoTyped.rec
    (motive_1 := fun t v _ => (∀ sh : Shape, sh.goType = t → ShapeTyped (regSchema env D) sh v) ∧
      (∀ id, t = .struct id → Typed (regSchema env D) id v))
    (motive_2 := fun d t x _ => SlotSpec (regSchema env D) d t x) ?_ ?_ ?_ ?_ ?_ ?_ ?_ ?_ ?_ ?_ ?_ ?_ h
  · intro t v h
    exact ⟨fun sh e => shape_basic e h, fun id e => by rw [e] at h; cases v <;> cases h⟩
  · intro t
    refine ⟨fun sh e => ?_, fun id e => by cases e⟩
    cases sh with
    | single sc => cases sc <;> cases e
    | optional sc => exact .optionalNil sc
    | list sc p => cases e
    | msg id p =>
      cases p with
      | true => exact .msg id true _ (.nil id)
      | false => cases e
    | msgList id p => cases e
    | map k v => cases e
    | mapMsg k id p => cases e
  · intro t v _ ih
    exact ⟨fun sh e => shape_of_ref e ih.1 ih.2, fun id e => by cases e⟩
  · intro t xs _ ih
    refine ⟨fun sh e => ?_, fun id e => by cases e⟩
    cases sh with
    | single sc => cases sc <;> cases e
    | optional sc => cases e
    | list sc p =>
      injection e with e
      refine .list sc p xs (fun x hx => ?_)
      cases (ih x hx).1 (.single sc) e with
      | single _ _ h => exact h
    | msg id p => cases p <;> cases e
    | msgList id p =>
      injection e with e
      exact .msgList id p xs (fun x hx => ref_of_shape ((ih x hx).1 (.msg id p) e))
    | map k v => cases e
    | mapMsg k id p => cases e
  · intro k t
    refine ⟨fun sh e => ?_, fun id e => by cases e⟩
    cases sh with
    | single sc => cases sc <;> cases e
    | optional sc => cases e
    | list sc p => cases e
    | msg id p => cases p <;> cases e
    | msgList id p => cases e
    | map k v => exact .mapNil k v
    | mapMsg k id p => exact .mapMsgNil k id p
  · intro k t m hn hk _ ih
    refine ⟨fun sh e => ?_, fun id e => by cases e⟩
    cases sh with
    | single sc => cases sc <;> cases e
    | optional sc => cases e
    | list sc p => cases e
    | msg id p => cases p <;> cases e
    | msgList id p => cases e
    | map k' v' =>
      injection e with e1 e2
      refine .map k' v' m hn (fun x hx => ⟨?_, ?_⟩)
      · unfold Scalar.HasKey; rw [e1]; exact hk x hx
      · cases (ih x hx).1 (.single v') e2 with
        | single _ _ h => exact h
    | mapMsg k' id p =>
      injection e with e1 e2
      refine .mapMsg k' id p m hn (fun x hx => ?_) (fun x hx => ref_of_shape ((ih x hx).1 (.msg id p) e2))
      unfold Scalar.HasKey; rw [e1]; exact hk x hx
  · intro id xs hlen _ ih
    have key : Typed (regSchema env D) id (.struct xs) := by
      cases hs : env.structs[id]? with
      | none =>
        rw [hs] at hlen
        have hS : regSchema env D id = default := by unfold regSchema; rw [hs]
        refine .mk id xs (by rw [hS]; exact hlen) (by rw [hS]; exact nofun) (by rw [hS]; exact nofun)
      | some s =>
        rw [hs] at hlen ih
        simp only [Option.getD_some] at hlen ih
        have hS : regSchema env D id = regMessage s (D id) := by unfold regSchema; rw [hs]
        have hrs := hr s (List.mem_of_getElem? hs)
        have hds := parseDescs_get hd id s hs
        refine .mk id xs (by rw [hS]; exact hlen) ?_ ?_
        · rw [hS]
          intro f hf x hx
          obtain ⟨g, hg, rfl⟩ := List.mem_map.1 hf
          obtain ⟨q, hq⟩ := ((parseStruct_facts hds).1 g).1 hg
          cases (declared_facts hrs hds hq).1 with
          | plain i gf a1 a2 a3 a4 a5 a6 =>
            rw [a3] at hx
            refine .plain _ _ a4 ((ih i gf x a1 hx).1 ?_ _ a5)
            intro e
            have := (hrs.types gf (List.mem_of_getElem? a1) a2).1
            rw [e] at this; cases this
          | member j w i gf a1 a2 a3 a4 a5 a6 a7 a8 a9 =>
            obtain ⟨gf0, b1, b2, b3⟩ := a2
            rw [a5] at hx
            rcases (ih i gf0 x b1 hx).2 (hrs.oneofs gf0 (List.mem_of_getElem? b1) b2 b3) with rfl | ⟨w', rfl⟩ | ⟨w', y, rfl, hy⟩
            · exact .unset _ w.id a6
            · exact .nilMember _ w.id w' a6
            · by_cases e : w.id = w'
              · subst e
                exact .member _ w.id y a6 (hy w (List.mem_of_getElem? a1) rfl gf a4 _ a7)
              · exact .otherMember _ w.id w' y a6 e
        · rw [hS]
          intro i p x hu hx
          obtain ⟨gf, h1, _, h3⟩ := unkOf_some hu
          have hx := (ih i gf x h1 hx).1
          rw [h3] at hx
          cases p with
          | false =>
            cases hx nofun (.single .bytes) rfl with
            | single _ _ h => cases x <;> first | (cases h; done) | exact ⟨_, rfl⟩
          | true =>
            cases hx nofun (.optional .bytes) rfl with
            | optionalNil => exact .inl rfl
            | optional _ v h => cases v <;> first | (cases h; done) | exact .inr ⟨_, rfl⟩
    refine ⟨fun sh e => ?_, fun id' e => by cases e; exact key⟩
    cases sh with
    | single sc => cases sc <;> cases e
    | optional sc => cases e
    | list sc p => cases e
    | msg id' p =>
      cases p with
      | true => cases e
      | false => cases e; exact .msg id false _ (.inline id _ key)
    | msgList id p => cases e
    | map k v => cases e
    | mapMsg k id p => cases e
  · intro n v
    refine ⟨fun sh e => ?_, fun id e => by cases e⟩
    cases sh with
    | single sc => cases sc <;> cases e
    | optional sc => cases e
    | list sc p => cases e
    | msg id p => cases p <;> cases e
    | msgList id p => cases e
    | map k v => cases e
    | mapMsg k id p => cases e
  · intro d t x hne _ ih
    exact ⟨fun _ => ih.1, fun e => absurd e hne⟩
  · intro d
    exact ⟨fun e => absurd rfl e, fun _ => .inl rfl⟩
  · intro d w
    exact ⟨fun e => absurd rfl e, fun _ => .inr (.inl ⟨w, rfl⟩)⟩
  · intro d w x _ ih
    exact ⟨fun e => absurd rfl e, fun _ => .inr (.inr ⟨w, x, rfl, fun wr hwr e gf hg => (ih wr hwr e gf hg).1⟩)⟩

end Verif.Lemmas
