import Verif.Spec.NamesApart
import Verif.Props.DeriveModule
import Verif.Props.DeriveNames

/-! # C92: names in the code generated for a module -/

namespace Mockall.Props

open Derive Spec

/-- The functions with a receiver. -/
def selfCalls (l : List ModOut) : List Ident := l.filterMap fun | .callSelf _ _ _ _ s => some s.ident | _ => none

theorem moduleFns_perm : ∀ l : List ModOut, (moduleFns l).Perm
    ((mockCalls l).map (fun x => x.1.sig.ident) ++ ((contexts l).map Prod.fst ++
      ((checkpointFns l).map Prod.fst ++ selfCalls l)))
  | [] => .refl _
  | x :: l => by
    have ih := moduleFns_perm l
    cases x <;>
      simp only [moduleFns, mockCalls, contexts, checkpointFns, selfCalls, List.filterMap_cons, List.map_cons,
        List.cons_append] at ih ⊢
    · exact ih
    · exact ih
    · exact ih.cons _
    · exact (ih.cons _).trans (List.perm_middle.symm.trans (List.Perm.append_left _
        (List.perm_middle.symm.trans (List.Perm.append_left _ List.perm_middle.symm))))
    · exact (ih.cons _).trans List.perm_middle.symm
    · exact (ih.cons _).trans (List.perm_middle.symm.trans (List.Perm.append_left _ List.perm_middle.symm))

theorem length_kinds : ∀ l : List ModOut, l.length = (mockCalls l).length + (contexts l).length + (modules l).length +
    (copiedItems l).length + (checkpointFns l).length + (selfCalls l).length
  | [] => rfl
  | x :: l => by
    have ih := length_kinds l
    cases x <;>
      simp only [modules, copiedItems, mockCalls, contexts, checkpointFns, selfCalls, List.filterMap_cons,
        List.length_cons] at ih ⊢ <;> omega

theorem pointwise_names : ∀ {l l' : List Callable}, Pointwise Replaces l l' →
    l'.map (fun f => f.sig.ident) = l.map fun f => f.sig.ident
  | _, _, .nil => rfl
  | _, _, .cons h t => by
    rw [List.map_cons, List.map_cons, h.name, pointwise_names t]

theorem context_inj {a b : String} (h : a ++ "_context" = b ++ "_context") : a = b := string_append_left h

/-- **C92**, for modules.  If the functions of a module have names of their own (as they must), none is called like
another with `_context` behind it, and none `checkpoint`, then the mock of the module has no function and no module
twice.  Types and constants of the module are not in question: they are copied, if at all. -/
theorem C92_module (m : ItemMod) (o : OutMod) (h : expandModule m = .ok o) (l : List ModItem)
    (hl : m.content = some l) (hv : ValidModule l) (c : Config) (hp : ∀ f, Writes l f → c.Plain f.attrs)
    (hb : c.Blocks l) (hn : ((c.functions l).map fun f => f.sig.ident).Nodup)
    (hx : ∀ f ∈ c.functions l, ∀ g ∈ c.functions l, f.sig.ident ++ "_context" ≠ g.sig.ident)
    (hc : ∀ f ∈ c.functions l, f.sig.ident ≠ "checkpoint") :
    (moduleFns (c.stripMod o.items)).Nodup ∧ (modules (c.stripMod o.items)).Nodup := by
  obtain ⟨-, -, h1, h2, -, h4, h5, h6, h7⟩ := C62_module_partial m o h l hl hv c hp hb
  refine ⟨?_, h7 hn⟩
  have hs : selfCalls (c.stripMod o.items) = [] := by
    have := length_kinds (c.stripMod o.items)
    rw [h5, h4] at this
    rw [← List.length_eq_zero_iff]
    simp only [List.length_cons, List.length_nil] at this
    omega
  have e1 : (mockCalls (c.stripMod o.items)).map (fun x => x.1.sig.ident) = (c.functions l).map fun f => f.sig.ident := by
    rw [← pointwise_names h1, List.map_map]; rfl
  have e2 : (contexts (c.stripMod o.items)).map Prod.fst = (c.functions l).map fun f => f.sig.ident ++ "_context" := by
    have : (contexts (c.stripMod o.items)).map Prod.fst =
        ((mockCalls (c.stripMod o.items)).map (fun x => x.1.sig.ident)).map (· ++ "_context") := by
      rw [h2, List.map_map, List.map_map]; rfl
    rw [this, e1, List.map_map]; rfl
  refine (moduleFns_perm _).nodup_iff.2 ?_
  rw [e1, e2, h4, hs]
  refine List.nodup_append.2 ⟨hn, List.nodup_append.2 ⟨?_, by simp, ?_⟩, ?_⟩
  · exact nodup_image hn fun _ _ _ _ e => context_inj e
  · rintro x hx' y hy rfl
    obtain ⟨f, hf, rfl⟩ := List.mem_map.1 hx'
    simp only [List.map_cons, List.map_nil, List.append_nil, List.mem_cons, List.not_mem_nil, or_false] at hy
    exact context_ne_checkpoint _ hy
  · rintro x hx' y hy rfl
    obtain ⟨g, hg, rfl⟩ := List.mem_map.1 hx'
    rcases List.mem_append.1 hy with hy | hy
    · obtain ⟨f, hf, e⟩ := List.mem_map.1 hy
      exact hx f hf g hg e
    · simp only [List.map_cons, List.map_nil, List.append_nil, List.mem_cons, List.not_mem_nil, or_false] at hy
      exact hc g hg hy

/-- The example of C62 meets the conditions. -/
example : ((exConfig.functions (exModule.content.getD [])).map fun f => f.sig.ident) = ["g", "h"] ∧
    (expandModule exModule).toOption.map (fun o => moduleFns (exConfig.stripMod o.items)) =
      some ["g", "g_context", "h", "h_context", "checkpoint"] := by decide +kernel

/-- The functions of the mock of a module with these functions. -/
def fnsOf (l : List Ident) : Option (List Ident) :=
  (expandModule { ident := "m", content := some (l.map fun n => .fn { sig := { ident := n } }) }).toOption.map fun o =>
    moduleFns o.items

/-- **C92**, the conditions for modules are needed: a function called `checkpoint`, or like another with `_context` behind
it, makes code that has a function twice. -/
theorem C92_module_clashes :
    fnsOf ["checkpoint"] = some ["checkpoint", "checkpoint_context", "checkpoint"] ∧
    fnsOf ["f", "f_context"] = some ["f", "f_context", "f_context", "f_context_context", "checkpoint"] := by
  decide +kernel

end Mockall.Props
