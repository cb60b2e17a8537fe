import Verif.Discriminant.Props
import Verif.Ordered.Props
import Verif.TypeEq.Props
import Verif.Toposort.Props
import Verif.Utf8.Props
import Verif.Utf8.WriterModel
import Verif.Utf8.Writer
import Verif.Words.Props
import Verif.RustString.Props
import Verif.StrCmp.Props
import Verif.Sizes.Props
import Verif.Slice.Props
import Verif.RustVec.Props
import Verif.RustBox.Props
import Verif.Exception.Props
import Verif.Unwind.Props
import Verif.CxxString.Props
import Verif.UniquePtr.Props
import Verif.SharedPtr.Props
import Verif.CxxVector.Props
import Verif.Builtins.Props
import Verif.Types.Props
import Verif.Types.Collect
import Verif.Check.Props
import Verif.Check.Exact
import Verif.Check.Resolve
import Verif.Mangle.Props
import Verif.Mangle.Runtime
import Verif.Improper.Props
import Verif.Pod.Props
import Verif.Abi.Props
import Verif.Qualified.Props
import Verif.Out.Props
import Verif.Nested.Props
import Verif.Nested.Bridge
import Verif.Cfg.Props
import Verif.Cfg.LookupProps
import Verif.Cfg.TreeProps
import Verif.Header.Check
import Verif.Preamble.IncludeProps
import Verif.Preamble.BuiltinProps
import Verif.Preamble.UseProps
import Verif.Preamble.PathProps
import Verif.Derive.Props
import Verif.Shim.Props
import Verif.Build.PathProps
import Verif.Build.WriteProps
import Verif.Build.LinkProps
import Verif.Build.IncludeProps
import Verif.Build.TouchProps
import Verif.Build.TargetProps
import Verif.Build.DepsProps
import Verif.Build.CrateProps
import Verif.Build.CfgVarProps
import Verif.Build.InternProps
import Verif.Gen.PipelineProps
import Verif.Gen.CommandProps
import Verif.Gen.FileProps
import Verif.Gen.FrontProps
import Verif.Parse.TypeProps
import Verif.Parse.AttrProps
import Verif.Parse.ItemProps
import Verif.Doc.Props
import Verif.Layout.Props
import Verif.Layout.EnumProps
import Verif.Layout.EnumItems
import Verif.Call.Props
import Verif.Assert.Props
import Verif.Thread.Props
import Verif.Conv.Props
import Verif.Thunk.Props
import Verif.Unit.Props
import Verif.Unit.Offered
import Verif.Repro.Spec
import Verif.Repro.Props
import Verif.Report.Props
import Verif.Lifetimes.Props
import Verif.Build.CopyProps
import Verif.Load.Props
import Verif.CxxText.Cases
import Verif.RustSig.Props
import Verif.Prototype.Cases
import Verif.Stripped.Cases
import Verif.Throw.Bridge
import Verif.Names.Props
import Verif.PtrTraits.Props
import Verif.Stream.Props
import Verif.Runtime.Props
import Verif.View.Props
import Verif.Reasons.Props
import Verif.Check.Ui
import Verif.Strings.Props
import Verif.Placed.Props
import Verif.Parse.Ui
import Verif.Parse.Ffi
import Verif.Together.Props
import Verif.Together.TypesProps
import Verif.Several.Cases
import Verif.Several.Lines
import Verif.Plain.Props
import Verif.ByValue.Props
import Verif.Check.Same
import Verif.Panics.Props
import Verif.Unsafety.Model
import Verif.Unsafety.Spec
import Verif.Unsafety.Props
import Verif.Repr.Props
import Verif.Fits.Props
import Verif.Once.Provided
