import Verif.Model.ImageSpec
import Verif.Props.Layout
import Verif.Props.Reloc
/-
Lemmas for C84: offsets as numbers, which cells lie in pointer slots, and the relocation instructions of an image.
-/
namespace Clr.Image
open Clr Clr.Reloc Clr.Layout
open Clr.Export (K Slot Ref Ptr St)

/-! ## The offsets as numbers -/

theorem off_cArray_allocator : offsetOf cArray b!"allocator" = 16 := by decide +kernel
theorem off_cArray_data : offsetOf cArray b!"data" = 8 := by decide +kernel
theorem off_cArray_size : offsetOf cArray b!"size" = 0 := by decide +kernel
theorem off_cls_attributes : offsetOf cls b!"attributes" = 192 := by decide +kernel
theorem off_cls_classes : offsetOf cls b!"classes" = 120 := by decide +kernel
theorem off_cls_constructor : offsetOf cls b!"constructor" = 80 := by decide +kernel
theorem off_cls_destructor : offsetOf cls b!"destructor" = 88 := by decide +kernel
theorem off_cls_enums : offsetOf cls b!"enums" = 96 := by decide +kernel
theorem off_cls_fields : offsetOf cls b!"fields" = 168 := by decide +kernel
theorem off_cls_flag_attributes : offsetOf cls b!"flag_attributes" = 240 := by decide +kernel
theorem off_cls_methods : offsetOf cls b!"methods" = 144 := by decide +kernel
theorem off_cls_templates : offsetOf cls b!"templates" = 216 := by decide +kernel
theorem off_containerInfo_count : offsetOf containerInfo b!"count" = 36 := by decide +kernel
theorem off_containerInfo_flags : offsetOf containerInfo b!"flags" = 32 := by decide +kernel
theorem off_containerInfo_name : offsetOf containerInfo b!"name" = 0 := by decide +kernel
theorem off_containerInfo_read_iterator_type : offsetOf containerInfo b!"read_iterator_type" = 16 := by decide +kernel
theorem off_containerInfo_write_iterator_type : offsetOf containerInfo b!"write_iterator_type" = 24 := by decide +kernel
theorem off_databaseMem_classes : offsetOf databaseMem b!"classes" = 160 := by decide +kernel
theorem off_databaseMem_container_infos : offsetOf databaseMem b!"container_infos" = 408 := by decide +kernel
theorem off_databaseMem_enum_constants : offsetOf databaseMem b!"enum_constants" = 64 := by decide +kernel
theorem off_databaseMem_enums : offsetOf databaseMem b!"enums" = 88 := by decide +kernel
theorem off_databaseMem_fields : offsetOf databaseMem b!"fields" = 112 := by decide +kernel
theorem off_databaseMem_flag_attributes : offsetOf databaseMem b!"flag_attributes" = 264 := by decide +kernel
theorem off_databaseMem_float_attributes : offsetOf databaseMem b!"float_attributes" = 312 := by decide +kernel
theorem off_databaseMem_function_base_address : offsetOf databaseMem b!"function_base_address" = 0 := by decide +kernel
theorem off_databaseMem_functions : offsetOf databaseMem b!"functions" = 136 := by decide +kernel
theorem off_databaseMem_global_namespace : offsetOf databaseMem b!"global_namespace" = 432 := by decide +kernel
theorem off_databaseMem_int_attributes : offsetOf databaseMem b!"int_attributes" = 288 := by decide +kernel
theorem off_databaseMem_name_text_data : offsetOf databaseMem b!"name_text_data" = 8 := by decide +kernel
theorem off_databaseMem_names : offsetOf databaseMem b!"names" = 16 := by decide +kernel
theorem off_databaseMem_namespaces : offsetOf databaseMem b!"namespaces" = 232 := by decide +kernel
theorem off_databaseMem_primitive_attributes : offsetOf databaseMem b!"primitive_attributes" = 336 := by decide +kernel
theorem off_databaseMem_template_types : offsetOf databaseMem b!"template_types" = 208 := by decide +kernel
theorem off_databaseMem_templates : offsetOf databaseMem b!"templates" = 184 := by decide +kernel
theorem off_databaseMem_text_attribute_data : offsetOf databaseMem b!"text_attribute_data" = 256 := by decide +kernel
theorem off_databaseMem_text_attributes : offsetOf databaseMem b!"text_attributes" = 360 := by decide +kernel
theorem off_databaseMem_type_primitives : offsetOf databaseMem b!"type_primitives" = 384 := by decide +kernel
theorem off_databaseMem_types : offsetOf databaseMem b!"types" = 40 := by decide +kernel
theorem off_enum_attributes : offsetOf enum b!"attributes" = 104 := by decide +kernel
theorem off_enum_constants : offsetOf enum b!"constants" = 80 := by decide +kernel
theorem off_enum_flag_attributes : offsetOf enum b!"flag_attributes" = 128 := by decide +kernel
theorem off_enumConstant_value : offsetOf enumConstant b!"value" = 40 := by decide +kernel
theorem off_field_attributes : offsetOf field b!"attributes" = 64 := by decide +kernel
theorem off_field_ci : offsetOf field b!"ci" = 96 := by decide +kernel
theorem off_field_flag_attributes : offsetOf field b!"flag_attributes" = 88 := by decide +kernel
theorem off_field_offset : offsetOf field b!"offset" = 56 := by decide +kernel
theorem off_field_parent_unique_id : offsetOf field b!"parent_unique_id" = 60 := by decide +kernel
theorem off_field_qualifier : offsetOf field b!"qualifier" = 48 := by decide +kernel
theorem off_field_type : offsetOf field b!"type" = 40 := by decide +kernel
theorem off_function_address : offsetOf function b!"address" = 40 := by decide +kernel
theorem off_function_attributes : offsetOf function b!"attributes" = 88 := by decide +kernel
theorem off_function_flag_attributes : offsetOf function b!"flag_attributes" = 112 := by decide +kernel
theorem off_function_parameters : offsetOf function b!"parameters" = 64 := by decide +kernel
theorem off_function_return_parameter : offsetOf function b!"return_parameter" = 56 := by decide +kernel
theorem off_function_unique_id : offsetOf function b!"unique_id" = 48 := by decide +kernel
theorem off_intAttribute_value : offsetOf intAttribute b!"value" = 40 := by decide +kernel
theorem off_name_hash : offsetOf name b!"hash" = 0 := by decide +kernel
theorem off_name_text : offsetOf name b!"text" = 8 := by decide +kernel
theorem off_ns_classes : offsetOf ns b!"classes" = 112 := by decide +kernel
theorem off_ns_enums : offsetOf ns b!"enums" = 88 := by decide +kernel
theorem off_ns_functions : offsetOf ns b!"functions" = 136 := by decide +kernel
theorem off_ns_namespaces : offsetOf ns b!"namespaces" = 40 := by decide +kernel
theorem off_ns_templates : offsetOf ns b!"templates" = 160 := by decide +kernel
theorem off_ns_types : offsetOf ns b!"types" = 64 := by decide +kernel
theorem off_primitive_database : offsetOf primitive b!"database" = 32 := by decide +kernel
theorem off_primitive_kind : offsetOf primitive b!"kind" = 0 := by decide +kernel
theorem off_primitive_name : offsetOf primitive b!"name" = 8 := by decide +kernel
theorem off_primitive_parent : offsetOf primitive b!"parent" = 24 := by decide +kernel
theorem off_primitiveAttribute_primitive : offsetOf primitiveAttribute b!"primitive" = 40 := by decide +kernel
theorem off_qualifier_is_const : offsetOf qualifier b!"is_const" = 4 := by decide +kernel
theorem off_qualifier_op : offsetOf qualifier b!"op" = 0 := by decide +kernel
theorem off_template_instances : offsetOf template b!"instances" = 40 := by decide +kernel
theorem off_templateType_constructor : offsetOf templateType b!"constructor" = 80 := by decide +kernel
theorem off_templateType_destructor : offsetOf templateType b!"destructor" = 88 := by decide +kernel
theorem off_templateType_parameter_ptrs : offsetOf templateType b!"parameter_ptrs" = 128 := by decide +kernel
theorem off_templateType_parameter_types : offsetOf templateType b!"parameter_types" = 96 := by decide +kernel
theorem off_textAttribute_value : offsetOf textAttribute b!"value" = 40 := by decide +kernel
theorem off_type_base_types : offsetOf type b!"base_types" = 48 := by decide +kernel
theorem off_type_ci : offsetOf type b!"ci" = 72 := by decide +kernel
theorem off_type_size : offsetOf type b!"size" = 40 := by decide +kernel
theorem off_cls_base : offsetOf cls b!"base_types" = 48 := by decide +kernel
theorem off_enum_base : offsetOf enum b!"base_types" = 48 := by decide +kernel
theorem off_templateType_base : offsetOf templateType b!"base_types" = 48 := by decide +kernel
theorem stride_type : stride .type = 80 := by decide +kernel
theorem stride_constant : stride .constant = 48 := by decide +kernel
theorem stride_enum : stride .enum = 136 := by decide +kernel
theorem stride_field : stride .field = 104 := by decide +kernel
theorem stride_function : stride .function = 120 := by decide +kernel
theorem stride_cls : stride .cls = 248 := by decide +kernel
theorem stride_template : stride .template = 64 := by decide +kernel
theorem stride_instance : stride .instance = 136 := by decide +kernel
theorem stride_space : stride .space = 184 := by decide +kernel
theorem stride_flagAttr : stride .flagAttr = 40 := by decide +kernel
theorem stride_intAttr : stride .intAttr = 48 := by decide +kernel
theorem stride_floatAttr : stride .floatAttr = 48 := by decide +kernel
theorem stride_primAttr : stride .primAttr = 48 := by decide +kernel
theorem stride_textAttr : stride .textAttr = 48 := by decide +kernel
theorem stride_container : stride .container = 40 := by decide +kernel
theorem size_name : name.lay.size = 16 := by decide +kernel
theorem size_databaseMem : databaseMem.lay.size = 616 := by decide +kernel

/-- The pointers of a schema. -/
def offsetsAt (h : Nat) : List Nat := (schemas.getD h default).offsets

/-- The size of a schema's objects. -/
def strideAt (h : Nat) : Nat := (schemas.getD h default).stride

theorem offsetsAt_0 : offsetsAt 0 = [8, 24, 48, 72, 96, 120, 144, 168, 216, 192, 240, 256, 272, 296, 320, 344, 368, 392, 416, 480, 504, 528, 552, 576, 600] := by decide +kernel
theorem strideAt_0 : strideAt 0 = 616 := by decide +kernel
theorem offsetsAt_1 : offsetsAt 1 = [8] := by decide +kernel
theorem strideAt_1 : strideAt 1 = 16 := by decide +kernel
theorem offsetsAt_2 : offsetsAt 2 = [16, 24] := by decide +kernel
theorem strideAt_2 : strideAt 2 = 40 := by decide +kernel
theorem offsetsAt_3 : offsetsAt 3 = [16, 24, 56, 72] := by decide +kernel
theorem strideAt_3 : strideAt 3 = 80 := by decide +kernel
theorem offsetsAt_4 : offsetsAt 4 = [16, 24] := by decide +kernel
theorem strideAt_4 : strideAt 4 = 48 := by decide +kernel
theorem offsetsAt_5 : offsetsAt 5 = [16, 24, 56, 72, 88, 112] := by decide +kernel
theorem strideAt_5 : strideAt 5 = 136 := by decide +kernel
theorem offsetsAt_6 : offsetsAt 6 = [16, 24, 40, 72, 96] := by decide +kernel
theorem strideAt_6 : strideAt 6 = 104 := by decide +kernel
theorem offsetsAt_7 : offsetsAt 7 = [16, 24, 56, 72, 96] := by decide +kernel
theorem strideAt_7 : strideAt 7 = 120 := by decide +kernel
theorem offsetsAt_8 : offsetsAt 8 = [16, 24, 56, 72, 80, 88, 104, 128, 152, 176, 200, 224] := by decide +kernel
theorem strideAt_8 : strideAt 8 = 248 := by decide +kernel
theorem offsetsAt_9 : offsetsAt 9 = [16, 24, 56, 72, 80, 88, 96, 104, 112, 120] := by decide +kernel
theorem strideAt_9 : strideAt 9 = 136 := by decide +kernel
theorem offsetsAt_10 : offsetsAt 10 = [16, 24, 48] := by decide +kernel
theorem strideAt_10 : strideAt 10 = 64 := by decide +kernel
theorem offsetsAt_11 : offsetsAt 11 = [16, 24, 48, 72, 96, 120, 144, 168] := by decide +kernel
theorem strideAt_11 : strideAt 11 = 184 := by decide +kernel
theorem offsetsAt_12 : offsetsAt 12 = [16, 24] := by decide +kernel
theorem strideAt_12 : strideAt 12 = 48 := by decide +kernel
theorem offsetsAt_13 : offsetsAt 13 = [16, 24] := by decide +kernel
theorem strideAt_13 : strideAt 13 = 48 := by decide +kernel
theorem offsetsAt_14 : offsetsAt 14 = [16, 24, 40] := by decide +kernel
theorem strideAt_14 : strideAt 14 = 48 := by decide +kernel
theorem offsetsAt_15 : offsetsAt 15 = [16, 24, 40] := by decide +kernel
theorem strideAt_15 : strideAt 15 = 48 := by decide +kernel
theorem offsetsAt_16 : offsetsAt 16 = [0] := by decide +kernel
theorem strideAt_16 : strideAt 16 = 8 := by decide +kernel
theorem offsetsAt_17 : offsetsAt 17 = [8, 16, 24] := by decide +kernel
theorem strideAt_17 : strideAt 17 = 40 := by decide +kernel

theorem strideAt_handle : ∀ k, strideAt (handleOf k) = stride k := by
  intro k; cases k <;> decide +kernel

theorem handle_lt : ∀ k, handleOf k < 18 := by intro k; cases k <;> decide

section
attribute [local simp] off_cls_base off_enum_base off_templateType_base off_cArray_allocator off_cArray_data off_cArray_size off_cls_attributes off_cls_classes off_cls_constructor off_cls_destructor off_cls_enums off_cls_fields off_cls_flag_attributes off_cls_methods off_cls_templates off_containerInfo_count off_containerInfo_flags off_containerInfo_name off_containerInfo_read_iterator_type off_containerInfo_write_iterator_type off_databaseMem_classes off_databaseMem_container_infos off_databaseMem_enum_constants off_databaseMem_enums off_databaseMem_fields off_databaseMem_flag_attributes off_databaseMem_float_attributes off_databaseMem_function_base_address off_databaseMem_functions off_databaseMem_global_namespace off_databaseMem_int_attributes off_databaseMem_name_text_data off_databaseMem_names off_databaseMem_namespaces off_databaseMem_primitive_attributes off_databaseMem_template_types off_databaseMem_templates off_databaseMem_text_attribute_data off_databaseMem_text_attributes off_databaseMem_type_primitives off_databaseMem_types off_enum_attributes off_enum_constants off_enum_flag_attributes off_enumConstant_value off_field_attributes off_field_ci off_field_flag_attributes off_field_offset off_field_parent_unique_id off_field_qualifier off_field_type off_function_address off_function_attributes off_function_flag_attributes off_function_parameters off_function_return_parameter off_function_unique_id off_intAttribute_value off_name_hash off_name_text off_ns_classes off_ns_enums off_ns_functions off_ns_namespaces off_ns_templates off_ns_types off_primitive_database off_primitive_kind off_primitive_name off_primitive_parent off_primitiveAttribute_primitive off_qualifier_is_const off_qualifier_op off_template_instances off_templateType_constructor off_templateType_destructor off_templateType_parameter_ptrs off_templateType_parameter_types off_textAttribute_value off_type_base_types off_type_ci off_type_size stride_type stride_constant stride_enum stride_field stride_function stride_cls stride_template stride_instance stride_space stride_flagAttr stride_intAttr stride_floatAttr stride_primAttr stride_textAttr stride_container size_name size_databaseMem
attribute [local simp] offsetsAt_0 strideAt_0 offsetsAt_1 strideAt_1 offsetsAt_2 strideAt_2 offsetsAt_3 strideAt_3 offsetsAt_4 strideAt_4 offsetsAt_5 strideAt_5 offsetsAt_6 strideAt_6 offsetsAt_7 strideAt_7 offsetsAt_8 strideAt_8 offsetsAt_9 strideAt_9 offsetsAt_10 strideAt_10 offsetsAt_11 strideAt_11 offsetsAt_12 strideAt_12 offsetsAt_13 strideAt_13 offsetsAt_14 strideAt_14 offsetsAt_15 strideAt_15 offsetsAt_16 strideAt_16 offsetsAt_17 strideAt_17

/-- The contents are a pointer. -/
def isPtr : Val → Bool
  | .ptr _ => true
  | .raw _ => true
  | _ => false

/-- A cell of an object lies where its schema has a pointer if it is a pointer, and beside the pointers otherwise. -/
def Fit (h : Nat) (c : Cell) : Prop :=
  match c.2 with
  | .ptr _ => c.1 ∈ offsetsAt h
  | .raw _ => c.1 ∈ offsetsAt h
  | .num w _ => c.1 + w ≤ strideAt h ∧ ∀ q ∈ offsetsAt h, c.1 + w ≤ q ∨ q + 8 ≤ c.1
  | .bytes _ => False

theorem fit_ptr (h o : Nat) (t : Option Nat) : Fit h (o, .ptr t) ↔ o ∈ offsetsAt h := Iff.rfl
theorem fit_num (h o w v : Nat) : Fit h (o, .num w v) ↔
    o + w ≤ strideAt h ∧ ∀ q ∈ offsetsAt h, o + w ≤ q ∨ q + 8 ≤ o := Iff.rfl
theorem fit_place (h o : Nat) (p : Place) (x : Ptr) : Fit h (o, p.ptr x) ↔ o ∈ offsetsAt h := by
  cases x with
  | raw n => by_cases hn : n = 0 <;> simp [Place.ptr, hn, Fit]
  | obj r => rfl
theorem fit_opt (h o : Nat) (p : Place) (x : Option Ref) : Fit h (o, p.opt x) ↔ o ∈ offsetsAt h := Iff.rfl

attribute [local simp] fit_ptr fit_num fit_place fit_opt

theorem object_fit (p : Place) (d : Data) (db : Nat) (r : Ref) : ∀ c ∈ objectCells p d db r, Fit (handleOf r.1) c := by
  obtain ⟨k, i⟩ := r
  cases k <;>
    simp [objectCells, typeCells, primCells, kidsCells, arrayCells, nameCells, handleOf]

theorem isPtr_place (p : Place) (x : Ptr) : isPtr (p.ptr x) = true := by
  cases x with
  | raw n => by_cases hn : n = 0 <;> simp [Place.ptr, hn, isPtr]
  | obj r => rfl
theorem isPtr_opt (p : Place) (x : Option Ref) : isPtr (p.opt x) = true := rfl
theorem isPtr_ptr (x : Option Nat) : isPtr (.ptr x) = true := rfl
attribute [local simp] isPtr_place isPtr_opt isPtr_ptr

theorem object_covered (p : Place) (d : Data) (db : Nat) (r : Ref) :
    ∀ o ∈ offsetsAt (handleOf r.1), ∃ v, (o, v) ∈ objectCells p d db r ∧ isPtr v = true := by
  obtain ⟨k, i⟩ := r
  cases k <;>
    simp [objectCells, typeCells, primCells, kidsCells, arrayCells, nameCells, handleOf]

theorem header_fit (p : Place) (d : Data) : ∀ c ∈ headerCells p d, Fit 0 c := by
  simp [headerCells, arrayCells, Export.kinds, spaceMembers, tableMember, globalArray]

theorem header_covered (p : Place) (d : Data) :
    ∀ o ∈ offsetsAt 0, ∃ v, (o, v) ∈ headerCells p d ∧ isPtr v = true := by
  simp [headerCells, arrayCells, Export.kinds, spaceMembers, tableMember, globalArray]

/-- The arrays of the objects by name. -/
def slotName : Slot → Bytes
  | .constants => b!"constants"
  | .parameters => b!"parameters"
  | .enums => b!"enums"
  | .classes => b!"classes"
  | .methods => b!"methods"
  | .fields => b!"fields"
  | .templates => b!"templates"
  | .namespaces => b!"namespaces"
  | .types => b!"types"
  | .functions => b!"functions"
  | .instances => b!"instances"
  | .attributes => b!"attributes"
  | .bases => b!"base_types"

theorem kids_sub (p : Place) (d : Data) (db : Nat) (r : Ref) (s : Slot) (hs : s ∈ slotsOf r.1) :
    ∀ c ∈ kidsCells p d r (offsetOf (structOf r.1) (slotName s)) s, c ∈ objectCells p d db r := by
  obtain ⟨k, i⟩ := r
  cases k <;> simp only [slotsOf, List.mem_cons, List.not_mem_nil, or_false] at hs
  all_goals first
    | (rcases hs with rfl | rfl | rfl | rfl | rfl | rfl | rfl)
    | (rcases hs with rfl | rfl | rfl | rfl | rfl | rfl)
    | (rcases hs with rfl | rfl | rfl)
    | (rcases hs with rfl | rfl)
    | (subst hs)
  all_goals
    intro c hc
    simp [structOf, slotName] at hc
    simp [objectCells, typeCells, hc]
end

end Clr.Image
