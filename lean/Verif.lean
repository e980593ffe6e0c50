import Verif.Model.Base
import Verif.Model.Coll
import Verif.Model.Bitmap
import Verif.Model.Flatten
import Verif.Model.Validity
import Verif.Model.Offsets
import Verif.Model.Layout
import Verif.Proof.Base
import Verif.Proof.Lawful
import Verif.Proof.Vec
import Verif.Proof.Bits
import Verif.Proof.Bitmap
import Verif.Proof.Flatten
import Verif.Proof.Validity
import Verif.Proof.Offsets
import Verif.Proof.Layout
import Verif.Proof.Panic
import Verif.Proof.PanicFit
import Verif.Spec.Reads
import Verif.Spec.Reach
import Verif.Spec.Parts
import Verif.Proof.Parts
import Verif.Proof.Reach
import Verif.Proof.Oob
import Verif.Props.Arrays
import Verif.Spec.Env
import Verif.Proof.Live
import Verif.Props.Sample
import Verif.Props.OutOfRange
import Verif.Spec.History
import Verif.Props.History
import Verif.Props.Panics
import Verif.Spec.Splits
import Verif.Proof.Splits
import Verif.Proof.Kept
import Verif.Props.Kept
import Verif.Spec.Bits
import Verif.Props.Bitmaps
import Verif.Proof.ValidityParts
import Verif.Props.Nulls
import Verif.Model.Equality
import Verif.Spec.Equal
import Verif.Spec.Rows
import Verif.Proof.Equality
import Verif.Proof.OffsetsOverflow
import Verif.Props.Lists
import Verif.Props.FixedLists
import Verif.Proof.Fuse
import Verif.Proof.Capacity
import Verif.Props.FirstNone
import Verif.Props.Reserved
import Verif.Model.Storage
import Verif.Proof.Storage
import Verif.Props.Storages
import Verif.Model.Ffi
import Verif.Model.Release
import Verif.Model.Export
import Verif.Model.Import
import Verif.Spec.Ffi
import Verif.Proof.Ffi
import Verif.Proof.Import
import Verif.Proof.ImportOk
import Verif.Proof.Described
import Verif.Spec.Arrow
import Verif.Spec.Conforms
import Verif.Proof.Arrow
import Verif.Proof.Conforms
import Verif.Proof.Exported
import Verif.Proof.Export
import Verif.Proof.Release
import Verif.Proof.ImportInv
import Verif.Props.FfiSample
import Verif.Props.Import
import Verif.Props.Export
import Verif.Props.Arrow
import Verif.Props.Conforms
import Verif.Spec.Uninterrupted
import Verif.Proof.Tight
import Verif.Proof.Uninterrupted
import Verif.Props.Uninterrupted
import Verif.Proof.Drain
import Verif.Props.Visible
import Verif.Props.Unmended
import Verif.Proof.Fallible
import Verif.Props.Fallible
import Verif.Props.Reexport
import Verif.Props.Boxed
import Verif.Props.Nullability
import Verif.Spec.Compose
import Verif.Proof.Compose
import Verif.Props.Compose
import Verif.Model.Newtypes
import Verif.Proof.Newtypes
import Verif.Props.Newtypes
import Verif.Model.ListItems
import Verif.Spec.ListItems
import Verif.Proof.ListItems
import Verif.Props.ListItems
import Verif.Spec.Room
import Verif.Proof.Room
import Verif.Props.Room
import Verif.Model.Backend
import Verif.Spec.Backend
import Verif.Proof.Backend
import Verif.Proof.BackendBits
import Verif.Proof.BackendValidity
import Verif.Proof.BackendPanic
import Verif.Proof.BackendOffsets
import Verif.Proof.BackendComp
import Verif.Proof.BackendDrain
import Verif.Spec.BackendSame
import Verif.Proof.BackendSame
import Verif.Props.Backends
import Verif.Props.BackendPanics
import Verif.Props.Handles
import Verif.Spec.ReadOnly
import Verif.Proof.ReadOnly
import Verif.Props.ReadOnly
import Verif.Model.ValidityBitmap
import Verif.Props.Queries
import Verif.Model.RowEquality
import Verif.Props.RowEquality
import Verif.Model.Items
import Verif.Props.Items
import Verif.Props.PastEnd
import Verif.Props.Clones
import Verif.Model.Alloc
import Verif.Spec.Alloc
import Verif.Proof.Alloc
import Verif.Props.Allocators
import Verif.Spec.Spare
import Verif.Proof.Spare
import Verif.Proof.SpareValidity
import Verif.Proof.SpareOffsets
import Verif.Proof.SpareComp
import Verif.Props.Spare
import Verif.Spec.Refill
import Verif.Proof.Refill
import Verif.Props.Refill
import Verif.Model.Messages
import Verif.Spec.Messages
import Verif.Proof.Messages
import Verif.Props.Messages
import Verif.Model.Access
import Verif.Spec.Access
import Verif.Proof.Access
import Verif.Props.Access
import Verif.Model.Debug
import Verif.Spec.Debug
import Verif.Proof.Debug
import Verif.Props.Debug
import Verif.Model.UserArrays
import Verif.Spec.UserArrays
import Verif.Proof.UserArrays
import Verif.Props.UserArrays
import Verif.Model.FixedArrays
import Verif.Proof.FixedArrays
import Verif.Props.FixedArrays
import Verif.Spec.FirstNone
import Verif.Proof.FirstNone
import Verif.Proof.Unreadable
import Verif.Model.UserListItems
import Verif.Proof.UserListItems
import Verif.Props.UserListItems
import Verif.Model.Raw
import Verif.Spec.Raw
import Verif.Proof.Raw
import Verif.Props.Raw
import Verif.Model.RawExport
import Verif.Spec.RawExport
import Verif.Proof.RawExport
import Verif.Props.RawExport
import Verif.Spec.Session
import Verif.Proof.Session
import Verif.Proof.Part
import Verif.Props.Session
import Verif.Spec.UserRoom
import Verif.Proof.UserRoom
import Verif.Props.UserRoom
