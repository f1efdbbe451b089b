import Verif.Lemmas.Mem.DecStruct
import Verif.Lemmas.Mem.Frame
import Verif.Lemmas.Parse
import Verif.Lemmas.EncRefine
/-!
# The exported function on memory
-/
namespace Verif.Lemmas.Mem
open Verif.Model Verif.Model.Mem Verif.Spec Verif.Lemmas

variable {D : Descs} {S : Schema}

theorem descOf_t (f : Field) : (descOf f).t = f.shape.goType := by
  obtain ⟨n, sl, m, sh⟩ := f
  cases sh with
  | single s => cases s <;> rfl
  | msg id p => cases p <;> rfl
  | _ => rfl

theorem regular_of (hD : DescOK D S) (hW : S.WF) (hz : ∀ id, flat (S id).zero = true) :
    Regular D := by
  have mem : ∀ id g, g ∈ (D id).fields → ∃ f ∈ (S id).fields, g = descOf f := by
    intro id g hg
    rw [hD.fields] at hg
    obtain ⟨f, hf, rfl⟩ := List.mem_map.1 hg
    exact ⟨f, hf, rfl⟩
  refine ⟨fun id => by rw [hD.empty]; exact hz id, hD.found, ?_, ?_⟩
  · intro id f hf g hg hs ho
    obtain ⟨f', hf', rfl⟩ := mem id f hf
    obtain ⟨g', hg', rfl⟩ := mem id g hg
    by_cases hn : f'.num = g'.num
    · rw [fields_num_inj (hW id) hf' hg' hn]
      exact ⟨ho, rfl⟩
    · obtain ⟨w, w', _, e2, _⟩ := (hW id).disjoint f' hf' g' hg' hn
        (by rw [descOf_slot, descOf_slot] at hs; exact hs)
      rw [descOf_oneof, e2] at ho
      cases ho
  · intro id slot p hu f hf
    obtain ⟨f', hf', rfl⟩ := mem id f hf
    rw [hD.unknown] at hu
    rw [descOf_slot]
    exact ((hW id).unknown slot p hu).2 f' hf'

theorem clean_of_spare (hD : DescOK D S) {h : Store} {t : GoType} {v : MVal}
    (hs : SpareZero h S t v) : Clean h D t v := by
  induction hs with
  | list te v h1 =>
    refine .list _ _ (fun a len xs id e1 e2 e3 x hx => ?_)
    rw [hD.empty]
    exact h1 a len xs id e1 e2 e3 x hx
  | struct id v _ ih =>
    refine .struct _ _ (fun fs he f hf ho x hx => ?_)
    rw [hD.fields] at hf
    obtain ⟨f', hf', rfl⟩ := List.mem_map.1 hf
    rw [descOf_slot] at hx
    rw [descOf_oneof] at ho
    rw [descOf_t]
    exact ih fs he f' hf' ho x hx
  | other t v h1 h2 => exact .other _ _ h1 h2

theorem spare_of_clean (hD : DescOK D S) {h : Store} {t : GoType} {v : MVal}
    (hs : Clean h D t v) : SpareZero h S t v := by
  induction hs with
  | list te v h1 =>
    refine .list _ _ (fun a len xs id e1 e2 e3 x hx => ?_)
    rw [← hD.empty]
    exact h1 a len xs id e1 e2 e3 x hx
  | struct id v _ ih =>
    refine .struct _ _ (fun fs he f hf ho x hx => ?_)
    have := ih fs he (descOf f) (by rw [hD.fields]; exact List.mem_map.2 ⟨f, hf, rfl⟩)
      (by rw [descOf_oneof]; exact ho) x (by rw [descOf_slot]; exact hx)
    rwa [descOf_t] at this
  | other t v h1 h2 => exact .other _ _ h1 h2

theorem ownD_of (hD : DescOK D S) {W : Blocks} {t : GoType} {v : MVal}
    (hs : OwnIn W S t v) : OwnD W D t v := by
  induction hs with
  | list te v h1 => exact .list _ _ h1
  | map k e v h1 => exact .map _ _ _ h1
  | struct id v _ h2 h3 ih =>
    refine .struct _ _ (fun fs he f hf ho x hx => ?_) ?_ ?_
    · rw [hD.fields] at hf
      obtain ⟨f', hf', rfl⟩ := List.mem_map.1 hf
      rw [descOf_slot] at hx
      rw [descOf_oneof] at ho
      rw [descOf_t]
      exact ih fs he f' hf' ho x hx
    · rw [hD.unknown]; exact h2
    · rw [hD.unknown]; exact h3
  | other t v h1 h2 h3 => exact .other _ _ h1 h2 h3

theorem unmarshalM_eq {env : GoEnv} (hp : parseDescs env = .ok D) (b : View) (id a : Nat) (h : Store) :
    unmarshalM env b (.ptr id (some a)) h = decodeInto D b id a h := by
  unfold unmarshalM
  have : lift (parseDescs env) h = (.ok D, h) := by rw [hp]; rfl
  exact bind_ok this

/-- The result of decoding into a variable. -/
def intoRes : Res MVal → Res Unit
  | .ok _ => .ok ()
  | .error e => .error e

/-- The content of the variable afterwards. -/
def intoVal : Res MVal → MVal
  | .ok v => v
  | .error _ => .undef

/-- What decoding into a variable does, by the result of decoding its content. -/
theorem decodeInto_eq {h : Store} {a : Nat} {v : MVal} (hm : h.mem a = .object v) (b : View)
    (id : Nat) {r : Res MVal} {h' : Store}
    (hr : decodeStructM D (b.len + 1) defaultRecursionMaxDepth b v id h = (r, h')) :
    decodeInto D b id a h = (intoRes r, h'.set a (.object (intoVal r))) := by
  unfold decodeInto
  rw [hm]
  simp only
  rw [hr]
  cases r <;> rfl

end Verif.Lemmas.Mem
