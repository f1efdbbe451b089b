import Verif.Lemmas.Gen.Slots
import Verif.Props.Gen.Resolve
/-!
# Lemmas: all messages are generated
-/
namespace Verif.Props.Gen
open Verif.Spec.Gen Verif.Model.Gen

/-! ## The list of messages -/

mutual
theorem msgChains_around {ms : List MsgDecl} : ∀ (m : MsgDecl) (c : Chain), Around ms ((c.path, m) :: c) →
    ∀ c' ∈ msgChains c m, Around ms c'
  | .mk n es sub fs os ds opts rs, c, h => by
    intro c' hc
    rw [msgChains] at hc
    rcases List.mem_cons.1 hc with rfl | hc
    · exact h
    · refine msgsChains_around sub _ (fun x hx => ?_) c' hc
      exact Around.inner (m := x) (outer := c.path) (x := .mk n es sub fs os ds opts rs) h hx
theorem msgsChains_around {ms : List MsgDecl} : ∀ (sub : List MsgDecl) (c : Chain), (∀ m ∈ sub, Around ms ((c.path, m) :: c)) →
    ∀ c' ∈ msgsChains c sub, Around ms c'
  | [], c, _ => by
    intro c' hc
    rw [msgsChains] at hc
    cases hc
  | m :: sub, c, h => by
    intro c' hc
    rw [msgsChains] at hc
    rcases List.mem_append.1 hc with hc | hc
    · exact msgChains_around m c (h m (List.mem_cons_self ..)) c' hc
    · exact msgsChains_around sub c (fun x hx => h x (List.mem_cons_of_mem _ hx)) c' hc
end

theorem msgChains_head (m : MsgDecl) (c : Chain) : (c.path, m) :: c ∈ msgChains c m := by
  cases m
  rw [msgChains]
  exact List.mem_cons_self ..

theorem msgsChains_head {m : MsgDecl} {c : Chain} : ∀ {ms : List MsgDecl}, m ∈ ms → (c.path, m) :: c ∈ msgsChains c ms
  | x :: ms, h => by
    rw [msgsChains]
    rcases List.mem_cons.1 h with rfl | h
    · exact List.mem_append_left _ (msgChains_head _ c)
    · exact List.mem_append_right _ (msgsChains_head h)

mutual
theorem msgChains_inner {x : MsgDecl} : ∀ (m : MsgDecl) (c c' : Chain), c' ∈ msgChains c m → x ∈ c'.msg.messages → (c'.path, x) :: c' ∈ msgChains c m
  | .mk n es sub fs os ds opts rs, c, c', hc, hx => by
    rw [msgChains] at hc ⊢
    apply List.mem_cons_of_mem
    rcases List.mem_cons.1 hc with rfl | hc
    · exact msgsChains_head hx
    · exact msgsChains_inner sub _ c' hc hx
theorem msgsChains_inner {x : MsgDecl} : ∀ (sub : List MsgDecl) (c c' : Chain), c' ∈ msgsChains c sub → x ∈ c'.msg.messages → (c'.path, x) :: c' ∈ msgsChains c sub
  | [], c, c', hc, _ => by
    rw [msgsChains] at hc
    cases hc
  | m :: sub, c, c', hc, hx => by
    rw [msgsChains] at hc ⊢
    rcases List.mem_append.1 hc with hc | hc
    · exact List.mem_append_left _ (msgChains_inner m c c' hc hx)
    · exact List.mem_append_right _ (msgsChains_inner sub c c' hc hx)
end

theorem chains_iff (ms : List MsgDecl) (c : Chain) : c ∈ msgsChains [] ms ↔ Around ms c := by
  constructor
  · exact msgsChains_around ms [] (fun m hm => .top hm) c
  · intro h
    induction h with
    | top hm => exact msgsChains_head (c := []) hm
    | inner _ hm ih => exact msgsChains_inner ms [] _ ih hm

theorem file_out {W : World} {f : Nat} (h : ¬ f < W.files.length) : (W.file f).messages = [] ∧ (W.file f).enums = [] := by
  have : W.file f = ⟨.proto3, [], [], [], [], [], [], []⟩ := by
    unfold World.file
    rw [List.getD_eq_getElem?_getD, List.getElem?_eq_none (by omega)]
    rfl
  rw [this]
  exact ⟨rfl, rfl⟩

theorem around_nil {c : Chain} : ¬ Around [] c := by
  intro h
  induction h with
  | top hm => cases hm
  | inner _ _ ih => exact ih

theorem around_file {W : World} {f : Nat} {c : Chain} (h : Around (W.file f).messages c) : f < W.files.length := by
  apply Decidable.byContradiction
  intro hf
  rw [(file_out hf).1] at h
  exact around_nil h

theorem all_iff (W : World) (f : Nat) (c : Chain) : (f, c) ∈ allMessages W ↔ Around (W.file f).messages c := by
  unfold allMessages
  rw [List.mem_flatMap]
  constructor
  · rintro ⟨p, _, h⟩
    obtain ⟨c', hc, e⟩ := List.mem_map.1 h
    cases e
    exact (chains_iff _ _).1 hc
  · intro h
    exact ⟨f, List.mem_range.2 (around_file h), List.mem_map.2 ⟨c, (chains_iff _ _).2 h, rfl⟩⟩

theorem around_path {ms : List MsgDecl} {c : Chain} (h : Around ms c) : scopeOf c = c.path := by
  cases h <;> rfl

/-! ## Declarations -/

theorem declares_around_aux {ms ms' : List MsgDecl} {es : List EnumDecl} {path : List Str} {k : Bool} (h : Declares ms' es path k) :
    ∀ (c : Chain), Around ms c → ms' = c.msg.messages → k = false → ∃ c', Around ms c' ∧ scopeOf c' = c.path ++ path := by
  induction h with
  | enum _ => intro c _ _ h; cases h
  | @msg ms' es m hm =>
    intro c hc e _
    subst e
    cases c with
    | nil => cases hc
    | cons x rest => exact ⟨_, Around.inner (m := m) hc hm, rfl⟩
  | @nested ms' es m path k hm _ ih =>
    intro c hc e hk
    subst e
    cases c with
    | nil => cases hc
    | cons x rest =>
      obtain ⟨c', h1, h2⟩ := ih _ (Around.inner (m := m) hc hm) rfl hk
      refine ⟨c', h1, ?_⟩
      rw [h2]
      simp [Chain.path]

theorem declares_around {ms : List MsgDecl} {es : List EnumDecl} {path : List Str} (h : Declares ms es path false) :
    ∃ c, Around ms c ∧ scopeOf c = path := by
  cases h with
  | msg hm => exact ⟨_, .top hm, rfl⟩
  | nested hm h =>
    obtain ⟨c, h1, h2⟩ := declares_around_aux h _ (.top hm) rfl rfl
    exact ⟨c, h1, h2⟩

theorem exists_file {W : World} {r : Ref} (h : Exists W r) : r.file < W.files.length := by
  apply Decidable.byContradiction
  intro hf
  unfold Spec.Gen.Exists at h
  rw [(file_out hf).1, (file_out hf).2] at h
  generalize r.path = path at h
  generalize r.isEnum = k at h
  cases h with
  | enum h => cases h
  | msg h => cases h
  | nested h => cases h

theorem exists_message {W : World} {r : Ref} (h : Exists W r) (he : r.isEnum = false) :
    ∃ (id : Nat) (c : Chain), (allMessages W)[id]? = some (r.file, c) ∧ scopeOf c = r.path := by
  unfold Spec.Gen.Exists at h
  rw [he] at h
  obtain ⟨c, h1, h2⟩ := declares_around h
  obtain ⟨id, hid⟩ := List.getElem?_of_mem ((all_iff W r.file c).2 h1)
  exact ⟨id, c, hid, h2⟩

theorem exists_enum {W : World} {r : Ref} (h : Exists W r) (he : r.isEnum = true) (hl : r.path.length ≤ 2) :
    ((W.file r.file).goImport, goTypeName r.path) ∈ genEnums W := by
  have hf := exists_file h
  unfold genEnums
  rw [List.mem_flatMap]
  refine ⟨r.file, List.mem_range.2 hf, ?_⟩
  unfold Spec.Gen.Exists at h
  rw [he] at h
  generalize r.path = path at h hl
  cases h with
  | enum h => exact List.mem_append_left _ (List.mem_map.2 ⟨_, h, rfl⟩)
  | nested hm h =>
    apply List.mem_append_right
    rw [List.mem_flatMap]
    refine ⟨_, hm, ?_⟩
    cases h with
    | enum h => exact List.mem_map.2 ⟨_, h, rfl⟩
    | nested _ h =>
      have := declares_ne h
      rw [List.length_cons, List.length_cons] at hl
      exact absurd (List.length_eq_zero_iff.1 (by omega)) this

end Verif.Props.Gen
