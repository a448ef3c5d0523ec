import Verif.Props.Parse
import Verif.Model.IrItem
import Verif.Proof.Examples

/-!
The unit tests of the code (src/ir.rs:305-440, src/ir/ty.rs:345-455, src/ir/define.rs:296-839,
src/ir/item.rs:218-281, src/thumb.rs:632-695), run against the model. They are no proofs of properties: they
check that the model computes what the program computes where the authors wrote that down.
-/

namespace CallStack

/-! ### src/ir.rs -/

example : aliasP exClass c!"%\"blue_pill::ItmLogger\"" = .ok c!"" c!"blue_pill::ItmLogger" := by decide +kernel

example : aliasP exClass c!"%ExceptionFrame" = .ok c!"" c!"ExceptionFrame" := by decide +kernel

example : aliasP exClass c!"%value" = .ok c!"" c!"value" := by decide +kernel

example : attributeP exClass c!"void" = .error := by decide +kernel

example : ∃ r, bitcastP exClass c!"bitcast (i8* getelementptr inbounds (<{ [228 x i8] }>, <{ [228 x i8] }>* @_ZN17at28c_rs_firmware3APP7usb_dev17h0475a05cee83d665E, i32 0, i32 0, i32 44) to i32*)" = .ok [] r := ⟨some c!"_ZN17at28c_rs_firmware3APP7usb_dev17h0475a05cee83d665E", by decide +kernel⟩

example : commentP c!"; core::ptr::real_drop_in_place" = .ok c!"" () := by decide +kernel

example : commentP c!"; Function Attrs: norecurse nounwind readnone" = .ok c!"" () := by decide +kernel

example : getelementptrP exClass c!"getelementptr inbounds (<{ [0 x i8] }>, <{ [0 x i8] }>* @anon.3751ff68b49c735a867036886cf6a576.71, i32 0, i32 0)" = .ok c!"" (some c!"anon.3751ff68b49c735a867036886cf6a576.71") := by decide +kernel

example : identP exClass c!"__sbss" = .ok c!"" c!"__sbss" := by decide +kernel

example : identP exClass c!"__EXCEPTIONS" = .ok c!"" c!"__EXCEPTIONS" := by decide +kernel

example : identP exClass c!"ExceptionFrame " = .ok c!" " c!"ExceptionFrame" := by decide +kernel

example : identP exClass c!"\"foo\"" = .error := by decide +kernel

example : identP exClass c!"0foo" = .error := by decide +kernel

example : localP exClass c!"%113" = .ok c!"" () := by decide +kernel

example : localP exClass c!"%." = .ok c!"" () := by decide +kernel

example : localP exClass c!"%.9" = .ok c!"" () := by decide +kernel

example : localP exClass c!"%f" = .ok c!"" () := by decide +kernel

example : localP exClass c!"%_17.0.i.i.i.i.i" = .ok c!"" () := by decide +kernel

example : (FnSig.mk [] none).show = c!"void ()" := by decide +kernel

example : (FnSig.mk [.integer 8] none).show = c!"void (i8)" := by decide +kernel

example : (FnSig.mk [.integer 8] (some (.integer 8))).show = c!"i8 (i8)" := by decide +kernel

example : stringP c!"\"\\E3\\81\\93\\E3\\82\\93\\E3\\81\\AB\\E3\\81\\A1\\E3\\82\\8F\"" = .ok c!"" c!"\\E3\\81\\93\\E3\\82\\93\\E3\\81\\AB\\E3\\81\\A1\\E3\\82\\8F" := by decide +kernel

example : stringP c!"\"Hello, world!\"" = .ok c!"" c!"Hello, world!" := by decide +kernel

example : stringP c!"\"\\22He\\0Allo\\22\"" = .ok c!"" c!"\\22He\\0Allo\\22" := by decide +kernel

example : stringP c!"\"Hello\" " = .ok c!" " c!"Hello" := by decide +kernel

/-! ### src/ir/ty.rs -/

example : fnInputsP (typeP exClass) c!"()" = .ok c!"" [] := by decide +kernel

example : integerP c!"i8" = .ok c!"" (.integer 8) := by decide +kernel

example : integerP c!"i16" = .ok c!"" (.integer 16) := by decide +kernel

example : integerP c!"i32" = .ok c!"" (.integer 32) := by decide +kernel

example : arrayP (typeP exClass) c!"[0 x i32]" = .ok c!"" (.array 0 (.integer 32)) := by decide +kernel

example : arrayP (typeP exClass) c!"[11 x i8]" = .ok c!"" (.array 11 (.integer 8)) := by decide +kernel

example : structP (typeP exClass) c!"{ i8, i16 }" = .ok c!"" (.struct [.integer 8, .integer 16]) := by decide +kernel

example : structP (typeP exClass) c!"{}" = .ok c!"" (.struct []) := by decide +kernel

example : structP (typeP exClass) c!"{ { i8, i16 }, { i8*, i16* } }" = .ok c!"" (.struct [.struct [.integer 8, .integer 16], .struct [.pointer (.integer 8), .pointer (.integer 16)]]) := by decide +kernel

example : typeP exClass c!"i8*" = .ok c!"" (.pointer (.integer 8)) := by decide +kernel

example : typeP exClass c!"i8**" = .ok c!"" (.pointer (.pointer (.integer 8))) := by decide +kernel

example : typeP exClass c!"void (i8*)*" = .ok c!"" (.pointer (.fn [.pointer (.integer 8)] none)) := by decide +kernel

example : typeP exClass c!"i8 (i8)*" = .ok c!"" (.pointer (.fn [.integer 8] (some (.integer 8)))) := by decide +kernel

example : typeP exClass c!"void ()**" = .ok c!"" (.pointer (.pointer (.fn [] none))) := by decide +kernel

example : varargsP c!"..." = .ok c!"" .varargs := by decide +kernel

example : mvtVectorP (typeP exClass) c!"<4 x i32>" = .ok c!"" (.mvtVector 4 (.integer 32)) := by decide +kernel

/-! ### src/ir/define.rs -/

example : argumentP exClass c!"{}* nonnull align 1 %3" = .ok c!"" (.pointer (.struct [])) := by decide +kernel

example : argumentP exClass c!"[0 x i8]* noalias nonnull readonly align 1 bitcast (<{ [11 x i8] }>* @anon.f060a8fe91113516c6f72b45ea256765.59 to [0 x i8]*)" = .ok c!"" (.pointer (.array 0 (.integer 8))) := by decide +kernel

example : argumentP exClass c!"{}* nonnull align 1 %723" = .ok c!"" (.pointer (.struct [])) := by decide +kernel

example : argumentP exClass c!"[0 x i8]* noalias nonnull readonly align 1 getelementptr inbounds (<{ [0 x i8] }>, <{ [0 x i8] }>* @anon.3751ff68b49c735a867036886cf6a576.71, i32 0, i32 0)" = .ok c!"" (.pointer (.array 0 (.integer 8))) := by decide +kernel

example : asmP exClass c!"call void asm sideeffect \"cpsie i\", \"~{memory}\"() #7, !dbg !5578, !srcloc !5475" = .ok c!"" (.asm c!"cpsie i") := by decide +kernel

example : asmP exClass c!"tail call i32 asm sideeffect \"mrs $0, BASEPRI\", \"=r\"() #5, !dbg !1270, !srcloc !1280" = .ok c!"" (.asm c!"mrs $0, BASEPRI") := by decide +kernel

example : assignP exClass c!"%0 = tail call nonnull i32 (i32)* @foo(), !dbg !1200" = .ok c!"" (.directCall c!"foo") := by decide +kernel

example : assignP exClass c!"%113 = call zeroext i1 %112({}* nonnull align 1 %109, [0 x i8]* noalias nonnull readonly align 1 %., i32 %.9) #10, !dbg !30714, !noalias !30727" = .ok c!"" (.indirectCall ⟨[.pointer (.struct []), .pointer (.array 0 (.integer 8)), .integer 32], some (.integer 1)⟩) := by decide +kernel

example : assignP exClass c!"%_0.sroa.0.0.insert.insert.i.i39 = tail call i32 @llvm.bswap.i32(i32 %page.0.i38) #9" = .ok c!"" (.directCall c!"llvm.bswap.i32") := by decide +kernel

example : bitcastCallP exClass c!"tail call fastcc i32 bitcast (i8* @__sbss to i32 ()*)() #6, !dbg !1177" = .ok c!"" (.bitcastCall (some c!"__sbss")) := by decide +kernel

example : directCallP exClass c!"call void @llvm.dbg.value(metadata %\"blue_pill::ItmLogger\"* %0, metadata !2111, metadata !DIExpression()), !dbg !2115" = .ok c!"" (.directCall c!"llvm.dbg.value") := by decide +kernel

example : directCallP exClass c!"tail call nonnull i32 (i32)* @foo(), !dbg !1200" = .ok c!"" (.directCall c!"foo") := by decide +kernel

example : directCallP exClass c!"tail call i32 @llvm.bswap.i32(i32 %page.0.i) #9" = .ok c!"" (.directCall c!"llvm.bswap.i32") := by decide +kernel

example : directCallP exClass c!"call i32 (i32, i64, ...) @ioctl(i32 %175, i64 1074295912, i64* nonnull %152) #10, !noalias !5657" = .ok c!"" (.directCall c!"ioctl") := by decide +kernel

example : directCallP exClass c!"call <4 x i32> @llvm.bswap.v4i32(<4 x i32> %2481)" = .ok c!"" (.directCall c!"llvm.bswap.v4i32") := by decide +kernel

example : indirectCallP exClass c!"tail call noundef i8 %14({}* noundef nonnull align 1 %_6.0.i.i.i, i8 noundef 2, i32* noalias noundef align 4 dereferenceable_or_null(4) null) #38, !dbg !22079, !range !22082, !noalias !22081" = .ok c!"" (.indirectCall ⟨[.pointer (.struct []), .integer 8, .pointer (.integer 32)], some (.integer 8)⟩) := by decide +kernel

example : indirectCallP exClass c!"tail call i32 %0(i32 0) #8, !dbg !1200" = .ok c!"" (.indirectCall ⟨[.integer 32], some (.integer 32)⟩) := by decide +kernel

example : indirectCallP exClass c!"call zeroext i1 %8({}* nonnull align 1 %3, [0 x i8]* noalias nonnull readonly align 1 bitcast (<{ [11 x i8] }>* @anon.f060a8fe91113516c6f72b45ea256765.59 to [0 x i8]*), i64 11), !dbg !4725, !noalias !4742" = .ok c!"" (.indirectCall ⟨[.pointer (.struct []), .pointer (.array 0 (.integer 8)), .integer 64], some (.integer 1)⟩) := by decide +kernel

example : indirectCallP exClass c!"call zeroext i1 %98({}* nonnull align 1 %93, [0 x i8]* noalias nonnull readonly align 1 bitcast (<{ [10 x i8] }>* @1 to [0 x i8]*), i32 10) #10, !dbg !5301" = .ok c!"" (.indirectCall ⟨[.pointer (.struct []), .pointer (.array 0 (.integer 8)), .integer 32], some (.integer 1)⟩) := by decide +kernel

example : indirectCallP exClass c!"call zeroext i1 %_8() #7, !dbg !1250" = .ok c!"" (.indirectCall ⟨[], some (.integer 1)⟩) := by decide +kernel

example : indirectCallP exClass c!"tail call i32 %_23.i(i8 %f.1)" = .ok c!"" (.indirectCall ⟨[.integer 8], some (.integer 32)⟩) := by decide +kernel

example : indirectCallP exClass c!"call void %125({}* nonnull align 1 %_17.0.i.i.i.i.i, i32* nonnull align 4 dereferenceable(180) bitcast (i8* getelementptr inbounds (<{ [228 x i8] }>, <{ [228 x i8] }>* @_ZN17at28c_rs_firmware3APP7usb_dev17h0475a05cee83d665E, i32 0, i32 0, i32 44) to i32*), i16* noalias nonnull readonly align 2 dereferenceable(10) %121) #13, !dbg !14831, !noalias !13140" = .ok c!"" (.indirectCall ⟨[.pointer (.struct []), .pointer (.integer 32), .pointer (.integer 16)], none⟩) := by decide +kernel

example : indirectCallP exClass c!"tail call void %10(ptr noundef nonnull align 1 %0, i8 -126), !noalias !51875" = .ok c!"" (.indirectCall ⟨[.opaquePointer, .integer 8], none⟩) := by decide +kernel

example : indirectCallP exClass c!"call noundef i8 %1105(i1 noundef zeroext false) #30, !dbg !66716, !range !53217, !noalias !66298" = .ok c!"" (.indirectCall ⟨[.integer 1], some (.integer 8)⟩) := by decide +kernel

example : indirectCallP exClass c!"tail call void %f()" = .ok c!"" (.indirectCall ⟨[], none⟩) := by decide +kernel

example : labelP exClass c!"\"payload_mut.exit.i.i\": ; preds = %bb3.i96.i" = .ok c!"" .label := by decide +kernel

example : labelP exClass c!"bb3.i96.i: ; preds = %bb37.i" = .ok c!"" .label := by decide +kernel

example : otherP c!"ret void, !dbg !1377" = .ok c!"" .other := by decide +kernel

example : parameterP exClass c!"%\"Enc28j60<Spi<SPI1, (PA5<Alternate<PushPull>>, PA6<Input<Floating>>, PA7<Alternate<PushPull>>)>, PA4<Output<PushPull>>, Unconnected, PA3<Output<PushPull>>>\"* nocapture align 2 dereferenceable(6)" = .ok c!"" (.pointer (.alias c!"Enc28j60<Spi<SPI1, (PA5<Alternate<PushPull>>, PA6<Input<Floating>>, PA7<Alternate<PushPull>>)>, PA4<Output<PushPull>>, Unconnected, PA3<Output<PushPull>>>")) := by decide +kernel

example : parameterP exClass c!"%\"jnet::mac::Addr\"* noalias nocapture readonly dereferenceable(6) %value" = .ok c!"" (.pointer (.alias c!"jnet::mac::Addr")) := by decide +kernel

example : parameterP exClass c!"float" = .ok c!"" .float := by decide +kernel

example : parameterP exClass c!"%ExceptionFrame* noalias nocapture readonly align 4 dereferenceable(32) %0" = .ok c!"" (.pointer (.alias c!"ExceptionFrame")) := by decide +kernel

example : parameterP exClass c!"ptr noalias nocapture noundef writeonly sret({ i128, i8 }) dereferenceable(24) %0" = .ok c!"" .opaquePointer := by decide +kernel

/-- parse1.ll -/
example : defineP exClass c!"define internal void @_ZN4core3ptr18real_drop_in_place17h10d0d6d6b26fb8afE(%\"blue_pill::ItmLogger\"* nocapture nonnull align 1) unnamed_addr #0 !dbg !2105 {\nstart:\n  ret void\n}" = .ok c!"" ⟨c!"_ZN4core3ptr18real_drop_in_place17h10d0d6d6b26fb8afE", ⟨[.pointer (.alias c!"blue_pill::ItmLogger")], none⟩, [.label, .other]⟩ := by decide +kernel

/-- parse2.ll -/
example : defineP exClass c!"define internal fastcc void @_ZN3std10sys_common12thread_local22register_dtor_fallback17h254497a6d25774eeE(i8*, void (i8*)* nonnull) unnamed_addr #0 personality i32 (i32, i32, i64, %\"unwind::libunwind::_Unwind_Exception\"*, %\"unwind::libunwind::_Unwind_Context\"*)* @rust_eh_personality !dbg !5158 {\nstart:\n  ret void\n}" = .ok c!"" ⟨c!"_ZN3std10sys_common12thread_local22register_dtor_fallback17h254497a6d25774eeE", ⟨[.pointer (.integer 8), .pointer (.fn [.pointer (.integer 8)] none)], none⟩, [.label, .other]⟩ := by decide +kernel

/-- parse3.ll -/
example : defineP exClass c!"define internal fastcc void @_ZN3std9panicking20rust_panic_with_hook17hac9cf78024704ab4E({}* nonnull align 1, [3 x i64]* noalias readonly align 8 dereferenceable(24), i64* noalias readonly align 8 dereferenceable_or_null(48), { [0 x i64], { [0 x i8]*, i64 }, [0 x i32], i32, [0 x i32], i32, [0 x i32] }* noalias nocapture readonly align 8 dereferenceable(24)) unnamed_addr #10 personality i32 (i32, i32, i64, %\"unwind::libunwind::_Unwind_Exception\"*, %\"unwind::libunwind::_Unwind_Context\"*)* @rust_eh_personality !dbg !6634 {\nstart:\n  ret void\n}" = .ok c!"" ⟨c!"_ZN3std9panicking20rust_panic_with_hook17hac9cf78024704ab4E", ⟨[.pointer (.struct []), .pointer (.array 3 (.integer 64)), .pointer (.integer 64), .pointer (.struct [.array 0 (.integer 64), .struct [.pointer (.array 0 (.integer 8)), .integer 64], .array 0 (.integer 32), .integer 32, .array 0 (.integer 32), .integer 32, .array 0 (.integer 32)])], none⟩, [.label, .other]⟩ := by decide +kernel

/-- parse4.ll -/
example : defineP exClass c!"define noalias void ()** @foo() unnamed_addr #0 !dbg !1272 {\nstart:\n  ret void ()** null, !dbg !1278\n}" = .ok c!"" ⟨c!"foo", ⟨[], some (.pointer (.pointer (.fn [] none)))⟩, [.label, .other]⟩ := by decide +kernel

/-- parse5.ll -/
example : defineP exClass c!"define internal fastcc float @_ZN3app3foo17h3337355bfdc88d96E(float) unnamed_addr #0 !dbg !1183 {\nstart:\n  call void @llvm.dbg.value(metadata float %0, metadata !1187, metadata !DIExpression()), !dbg !1188\n  %1 = fmul float %0, 0x3FF19999A0000000, !dbg !1189\n  ret float %1, !dbg !1190\n}" = .ok c!"" ⟨c!"_ZN3app3foo17h3337355bfdc88d96E", ⟨[.float], some (.float)⟩, [.label, .directCall c!"llvm.dbg.value", .other, .other]⟩ := by decide +kernel

/-- parse6.ll -/
example : defineP exClass c!"define dso_local void @_defmt_acquire(%\"core::option::Option<defmt::InternalFormatter>\"* noalias nocapture sret(%\"core::option::Option<defmt::InternalFormatter>\") dereferenceable(12) %0) unnamed_addr #0 !dbg !5972 {\n  ret void, !dbg !7208\n}" = .ok c!"" ⟨c!"_defmt_acquire", ⟨[.pointer (.alias c!"core::option::Option<defmt::InternalFormatter>")], none⟩, [.other]⟩ := by decide +kernel

/-- parse7.ll -/
example : defineP exClass c!"define hidden void @__aeabi_uidivmod() unnamed_addr #1 !dbg !258 {\nstart:\n  tail call void asm sideeffect alignstack \"push {lr}\", \"~{cc},~{memory}\"() #16, !dbg !263, !srcloc !264\n  unreachable, !dbg !263\n}" = .ok c!"" ⟨c!"__aeabi_uidivmod", ⟨[], none⟩, [.label, .asm c!"push {lr}", .other]⟩ := by decide +kernel

/-- parse8.ll -/
example : defineP exClass c!"define hidden void @__rust_i128_addo(ptr noalias nocapture noundef writeonly sret({ i128, i8 }) dereferenceable(24) %0, i128 %a, i128 %b) unnamed_addr #1 !dbg !9975 {\n  ret void, !dbg !9988\n}" = .ok c!"" ⟨c!"__rust_i128_addo", ⟨[.opaquePointer, .integer 128, .integer 128], none⟩, [.other]⟩ := by decide +kernel

/-- parse9.ll -/
example : defineP exClass c!"define weak hidden ptr @_ZN17compiler_builtins3mem6memcpy17he02e6130a63bff3aE(ptr %dest, ptr %src, i32 %n) unnamed_addr #7 !dbg !15318 {\n  ret ptr %dest, !dbg !15566\n}" = .ok c!"" ⟨c!"_ZN17compiler_builtins3mem6memcpy17he02e6130a63bff3aE", ⟨[.opaquePointer, .opaquePointer, .integer 32], some (.opaquePointer)⟩, [.other]⟩ := by decide +kernel

/-- parse10.ll -/
example : (match defineP exClass c!"define internal noundef zeroext i1 @_ZN21example_crate9mod_19ExampleStruct13example_method17he93ae98acbb4840aE() unnamed_addr #7 !dbg !104889 {\n  %1 = load ptr, ptr @_ZN21example_crate9mod_122STATIC_217hf5dc7549df71c743E.0, align 4, !dbg !104902, !nonnull !28, !noundef !28\n  tail call void %1(i32 noundef 0, i32 undef) #39, !dbg !104902\n  call void @llvm.dbg.value(metadata ptr @_ZN21example_crate9mod_15STATIC_417hbf104ea2eff23a2cE, metadata !104891, metadata !DIExpression()), !dbg !104903\n  call void @llvm.dbg.value(metadata ptr @_ZN21example_crate9mod_15STATIC_417hbf104ea2eff23a2cE, metadata !104893, metadata !DIExpression()), !dbg !104904\n; call example_crate::mod_2::mod_3::ExampleStruct2::example_method\n  %2 = tail call fastcc { i8, ptr } @_ZN21example_crate6mod_214mod_313ExampleStruct213example_method17hfb321e74ed0de54eE() #39, !dbg !104905\n  %3 = extractvalue { i8, ptr } %2, 0, !dbg !104905\n  %4 = extractvalue { i8, ptr } %2, 1, !dbg !104905\n  call void @llvm.dbg.value(metadata i1 undef, metadata !104897, metadata !DIExpression(DW_OP_LLVM_convert, 1, DW_ATE_unsigned, DW_OP_LLVM_convert, 8, DW_ATE_unsigned, DW_OP_stack_value)), !dbg !104906\n  call void @llvm.dbg.value(metadata ptr %4, metadata !104899, metadata !DIExpression()), !dbg !104906\n  %5 = and i8 %3, 1, !dbg !104907\n  %6 = icmp ne i8 %5, 0, !dbg !104907\n  %7 = load ptr, ptr @_ZN21example_crate9mod_122STATIC_217hf5dc7549df71c743E.0, align 4, !dbg !104906, !nonnull !28\n  %8 = load i32, ptr %4, align 4, !dbg !104906\n  br i1 %6, label %10, label %9, !dbg !104907\n\n9:                                                ; preds = %0\n  tail call void %7(i32 noundef 2, i32 %8) #39, !dbg !104908\n  call void @llvm.dbg.value(metadata i8 0, metadata !104900, metadata !DIExpression()), !dbg !104909\n  br label %15, !dbg !104910\n\n10:                                               ; preds = %0\n  tail call void %7(i32 noundef 1, i32 %8) #39, !dbg !104911\n  %11 = getelementptr inbounds %34, ptr %4, i32 0, i32 1, !dbg !104912\n  call void @llvm.dbg.value(metadata ptr %11, metadata !104913, metadata !DIExpression()), !dbg !104916\n  %12 = load ptr, ptr %11, align 4, !dbg !104917, !nonnull !28, !noundef !28\n  call void @llvm.dbg.value(metadata ptr poison, metadata !104918, metadata !DIExpression()), !dbg !104925\n  call void @llvm.dbg.value(metadata ptr %12, metadata !104924, metadata !DIExpression()), !dbg !104925\n  call void @llvm.dbg.value(metadata !28, metadata !104927, metadata !DIExpression()), !dbg !104934\n  call void @llvm.dbg.value(metadata ptr %12, metadata !104933, metadata !DIExpression()), !dbg !104934\n  call void @llvm.dbg.value(metadata !28, metadata !104936, metadata !DIExpression()), !dbg !104946\n  call void @llvm.dbg.value(metadata ptr %12, metadata !104941, metadata !DIExpression(DW_OP_LLVM_fragment, 32, 32)), !dbg !104946\n  call void @llvm.dbg.value(metadata i32 1, metadata !104941, metadata !DIExpression(DW_OP_LLVM_fragment, 0, 32)), !dbg !104946\n  call void @llvm.dbg.value(metadata !28, metadata !104948, metadata !DIExpression()), !dbg !104955\n  call void @llvm.dbg.value(metadata i32 1, metadata !104954, metadata !DIExpression(DW_OP_LLVM_fragment, 0, 32)), !dbg !104955\n  call void @llvm.dbg.value(metadata ptr %12, metadata !104954, metadata !DIExpression(DW_OP_LLVM_fragment, 32, 32)), !dbg !104955\n  store i1 true, ptr @_ZN21example_crate10mod_49mod_514STATIC_317h3296c1e70243f1dfE.0, align 4, !dbg !104957\n  store ptr %12, ptr @_ZN21example_crate10mod_49mod_514STATIC_317h3296c1e70243f1dfE.1, align 4, !dbg !104957, !noalias !104958\n  %13 = getelementptr inbounds %164, ptr %12, i32 0, i32 1, !dbg !104961\n  store ptr %13, ptr getelementptr inbounds (<{ [16 x i8] }>, ptr @_ZN21example_crate10mod_49mod_514STATIC_117h6df3a03feae3bb2aE, i32 0, i32 0, i32 4), align 4, !dbg !104962, !noalias !104958\n  %14 = getelementptr inbounds %164, ptr %12, i32 0, i32 2, !dbg !104963\n  store ptr %14, ptr getelementptr inbounds (<{ [16 x i8] }>, ptr @_ZN21example_crate10mod_49mod_514STATIC_117h6df3a03feae3bb2aE, i32 0, i32 0, i32 8), align 4, !dbg !104964, !noalias !104958\n  call void @llvm.dbg.value(metadata i8 1, metadata !104900, metadata !DIExpression()), !dbg !104909\n  br label %15, !dbg !104965\n\n15:                                               ; preds = %10, %9\n  call void @llvm.dbg.value(metadata i8 poison, metadata !104900, metadata !DIExpression()), !dbg !104909\n  %16 = load ptr, ptr @_ZN21example_crate9mod_122STATIC_217hf5dc7549df71c743E.0, align 4, !dbg !104966, !nonnull !28, !noundef !28\n  tail call void %16(i32 noundef 3, i32 undef) #39, !dbg !104966\n  ret i1 %6, !dbg !104967\n}" with
    | .ok _ d => d.name
    | _ => []) = c!"_ZN21example_crate9mod_19ExampleStruct13example_method17he93ae98acbb4840aE" := by decide +kernel

/-- parse11.ll -/
example : (match defineP exClass c!"define internal fastcc void @_ZN4ring2io10der_writer22write_positive_integer17h2cbd2a5c98e3e635E(ptr noundef nonnull align 1 %0, ptr noalias nocapture noundef readonly align 8 dereferenceable(24) %1, ptr %.0.val, i64 %.8.val) unnamed_addr #1 personality ptr @rust_eh_personality {\n  %3 = icmp eq i64 %.8.val, 0\n  br i1 %3, label %4, label %_ZN4ring2io8positive8Positive10first_byte17h8adc827486783c8bE.exit, !prof !4429\n\n4:                                                ; preds = %2\n; call core::panicking::panic_bounds_check\n  tail call fastcc void @_ZN4core9panicking18panic_bounds_check17h4183f129c0f2d665E(i64 0, i64 0, ptr noalias noundef nonnull readonly align 8 dereferenceable(24) @anon.d6133c3b30208f5fca04db122d621065.14) #79, !noalias !51502\n  unreachable\n\n_ZN4ring2io8positive8Positive10first_byte17h8adc827486783c8bE.exit: ; preds = %2\n  %5 = icmp ne ptr %.0.val, null\n  tail call void @llvm.assume(i1 %5)\n  %6 = load i8, ptr %.0.val, align 1, !noalias !51502\n  tail call void @llvm.experimental.noalias.scope.decl(metadata !51875)\n  %7 = icmp sgt i8 %6, -1\n  %not. = xor i1 %7, true\n  %spec.select = zext i1 %not. to i64\n  %8 = add i64 %spec.select, %.8.val\n  %9 = getelementptr inbounds ptr, ptr %1, i64 3\n  %10 = load ptr, ptr %9, align 8, !invariant.load !31, !alias.scope !51875, !nonnull !31\n  tail call void %10(ptr noundef nonnull align 1 %0, i8 2), !noalias !51875\n  %11 = icmp ult i64 %8, 128\n  br i1 %11, label %16, label %12\n\n12:                                               ; preds = %_ZN4ring2io8positive8Positive10first_byte17h8adc827486783c8bE.exit\n  %13 = icmp ult i64 %8, 256\n  br i1 %13, label %14, label %19\n\n14:                                               ; preds = %22, %12\n  %15 = phi i8 [ %24, %22 ], [ -127, %12 ]\n  tail call void %10(ptr noundef nonnull align 1 %0, i8 %15), !noalias !51875\n  br label %16\n\n16:                                               ; preds = %14, %_ZN4ring2io8positive8Positive10first_byte17h8adc827486783c8bE.exit\n  %17 = trunc i64 %8 to i8\n  tail call void %10(ptr noundef nonnull align 1 %0, i8 %17), !noalias !51875\n  br i1 %7, label %25, label %18\n\n18:                                               ; preds = %16\n  tail call void %10(ptr noundef nonnull align 1 %0, i8 0), !noalias !51878\n  br label %25\n\n19:                                               ; preds = %12\n  %20 = icmp ult i64 %8, 65536\n  br i1 %20, label %22, label %21\n\n21:                                               ; preds = %19\n; call core::panicking::panic\n  tail call fastcc void @_ZN4core9panicking5panic17h994e41dd01ee4ae7E(ptr noalias noundef nonnull readonly align 1 @anon.c850c2dd380da8d8c417acd313921560.0, i64 40, ptr noalias noundef nonnull readonly align 8 dereferenceable(24) @anon.557936f52e6ffec790ffbbb74fc64e51.20) #79, !noalias !51875\n  unreachable\n\n22:                                               ; preds = %19\n  tail call void %10(ptr noundef nonnull align 1 %0, i8 -126), !noalias !51875\n  %23 = lshr i64 %8, 8\n  %24 = trunc i64 %23 to i8\n  br label %14\n\n25:                                               ; preds = %18, %16\n  tail call void @llvm.experimental.noalias.scope.decl(metadata !51881)\n  %26 = getelementptr inbounds ptr, ptr %1, i64 4\n  %27 = load ptr, ptr %26, align 8, !invariant.load !31, !alias.scope !51881, !noalias !51884, !nonnull !31\n  tail call void %27(ptr noundef nonnull align 1 %0, ptr noalias noundef nonnull readonly align 1 %.0.val, i64 %.8.val), !noalias !51881\n  ret void\n}" with
    | .ok _ d => d.name
    | _ => []) = c!"_ZN4ring2io10der_writer22write_positive_integer17h2cbd2a5c98e3e635E" := by decide +kernel

/-! ### src/ir/item.rs -/

example : itemAliasP exClass c!"@__pre_init = unnamed_addr alias void (), void ()* @DefaultPreInit" = .ok c!"" (.alias c!"__pre_init" c!"DefaultPreInit") := by decide +kernel

example : declareP exClass c!"declare noalias i8* @malloc(i64) unnamed_addr #3" = .ok c!"" (.declare ⟨c!"malloc", some ⟨[.integer 64], some (.pointer (.integer 8))⟩⟩) := by decide +kernel

example : itemGlobalP exClass c!"@0 = private constant <{ [0 x i8] }> zeroinitializer, align 4, !dbg !0" = .ok c!"" .global := by decide +kernel

example : itemGlobalP exClass c!"@DEVICE_PERIPHERALS = local_unnamed_addr global <{ [1 x i8] }> zeroinitializer, align 1, !dbg !175" = .ok c!"" .global := by decide +kernel

example : itemP exClass c!"module asm \"\"" = .ok c!"" .moduleAsm := by decide +kernel

example : itemP exClass c!"module asm \"            .section .llvmbc,\\22e\\22\"" = .ok c!"" .moduleAsm := by decide +kernel

example : itemTypeP exClass c!"%0 = type { i32, { i8*, i8* } }" = .ok c!"" .type := by decide +kernel

example : itemTypeP exClass c!"%\"blue_pill::ItmLogger\" = type {}" = .ok c!"" .type := by decide +kernel

/-! ### src/thumb.rs -/

example : thumbAnalyze linearSearch [0xff, 0xf7, 0xe4, 0xfe] 0 false [] = .ok ⟨[-568 + 4], [], false, false, some 0⟩ := by
  decide +kernel

example : thumbAnalyze linearSearch [0x0, 0xf0, 0x2a, 0xfa] 0 false [] = .ok ⟨[1108 + 4], [], false, false, some 0⟩ := by
  decide +kernel

example : thumbAnalyze linearSearch [0x3, 0xe2] 0 false [] = .ok ⟨[], [1030 + 4], false, false, some 0⟩ := by
  decide +kernel

example : thumbAnalyze linearSearch [0xfe, 0xde] 0 true [] = .ok ⟨[], [], false, false, some 0⟩ := by
  decide +kernel

example : thumbAnalyze linearSearch [0x0, 0xbf] 0 false [] = .ok ⟨[], [], false, false, some 0⟩ := by
  decide +kernel

example : thumbAnalyze linearSearch [0x81, 0xb0] 0 false [] = .ok ⟨[], [], false, true, some 4⟩ := by
  decide +kernel

example : thumbAnalyze linearSearch [0x80, 0xb5] 0 false [] = .ok ⟨[], [], false, true, some 8⟩ := by
  decide +kernel

example : thumbAnalyze linearSearch [0x2d, 0xe9, 0xf0, 0x41] 0 true [] = .ok ⟨[], [], false, true, some 24⟩ := by
  decide +kernel

example : thumbAnalyze linearSearch [0x2d, 0xed, 0x2, 0x8b] 0 true [] = .ok ⟨[], [], false, true, some 8⟩ := by
  decide +kernel

example : thumbAnalyze linearSearch [0xad, 0xf5, 0x2, 0x7d] 0 true [] = .ok ⟨[], [], false, true, some 520⟩ := by
  decide +kernel

example : thumbAnalyze linearSearch [0x4d, 0xf8, 0x4, 0xbd] 0 true [] = .ok ⟨[], [], false, true, some 4⟩ := by
  decide +kernel

end CallStack
