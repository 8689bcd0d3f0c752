# Coverage of the source

Generated by `tools/gen_coverage.py` from the citations in the model: for every source file, the modules that model it
and the cited lines. Files without an entry in the second column are not modelled.

216 source files are cited.

| source file | modelled in | cited lines |
|---|---|---|
| bench/context.py (75) | Bench.RunModel, Bench.SweepModel | 12-23, 18-23, 20, 60-61, 64, 65, 66 |
| bench/errors.py (28) |  |  |
| bench/limits.py (320) | Bench.LimitsModel | 9-17, 20-33, 66-119, 70-81, 122-132, 135-140, 143-163, 166-192, 195-200, 203-320, 212-230, 260-303 |
| bench/main.py (1121) | Bench.ContractModel, Bench.NodeModel, Bench.ProtoModel, Bench.ReportProps, Bench.RunModel, Bench.SearchProps, Bench.SweepModel, Bench.SweepProps | 76-96, 234-249, 239-247, 242, 252-263, 257-262, 266-271, 274-275, 278-295, 324-345, 329-339, 333-338, 369-384, 387-480, 418-424, 426-430, 432-451, 442-451, 453-464, 471-480, 517-518, 523-533, 525, 531-1019, 550, 582-585, 585-620, 627-652, 642-652, 702, 723-730, 736, 756, 770-811, 771-777, 778, 828, 846-851, 852-862, 857-870, 864-871, 982-985, 1021-1090, 1022-1091, 1028-1042, 1045-1047, 1050-1074, 1051-1062, 1053-1059, 1076-1091 |
| bench/orchestrators/augmentation.py (279) | Bench.AugModel | 24-50, 33-49, 41-42, 43, 59-279, 81-109, 82-84, 98-107, 117-132, 134-279, 138-143, 145-151, 155-158, 160, 160-200, 176-180, 202-241, 204-207, 208-241, 209-213, 243-279, 253-271 |
| bench/orchestrators/dataset.py (63) |  |  |
| bench/orchestrators/evaluation.py (354) | Bench.ConvertModel, Bench.ProtoModel | 59-89, 71-82, 92-96, 99-117, 104, 113-117, 120-141, 123-130, 131-138, 144-150, 153-184, 168-174, 174-183, 187-221, 192-203, 192-197, 198-203, 224-234, 225, 230, 237-307, 256-304, 257-292, 257-297, 259-265, 267-274, 310-354, 332-351, 332-344 |
| bench/orchestrators/graph.py (107) | Bench.NodeModel | 32-35, 36-41, 49-107, 64-87, 85, 90-98 |
| bench/orchestrators/hpo.py (273) | Bench.SchemaTrials, Bench.SearchProps, Hpo.Model | 23-50, 24-29, 53-175, 67-84, 94-153, 97-98, 104-114, 118-120, 246-249, 252-266 |
| bench/orchestrators/method_inductive.py (677) | Bench.ConvertModel, Bench.InjectModel, Bench.ProtoModel, Bench.ResolveModel | 33-56, 36-43, 44-53, 59-65, 68-83, 72-73, 74-77, 78-82, 86-95, 98-109, 120-158, 123, 133-158, 136-138, 151-152, 161-178, 166, 172-178, 181-197, 200-232, 210-224, 210-216, 226-232, 235-261, 246-260, 264-277, 267, 280-289, 285, 292-297, 300-465, 318-384, 340-358, 371-374, 406-460, 413-417, 419-426, 428-444, 446-448, 449-459, 487-493, 488-490, 496-507, 510-677, 510-634, 524-528, 546-560, 569-587, 601-612, 614-634, 636-638, 636-650, 667-670 |
| bench/orchestrators/method_transductive.py (321) | Bench.NodeModel, Bench.ProtoModel, Bench.ResolveModel | 22-34, 37-50, 40, 53-62, 58, 65-77, 66-68, 80-90, 105-108, 111-116, 119-149, 126-140, 152-174, 153-163, 166-167, 167, 200-214, 229-292, 244-251, 263-273, 275-292, 299-302 |
| bench/orchestrators/preprocess.py (158) | Bench.ContractModel | 19-22, 34-77, 45-75, 53-56, 57, 60-62, 63-64, 80-110 |
| bench/orchestrators/reporting.py (198) | Bench.ReportModel | 21-36, 21-80, 39-73, 83-96, 91-95, 99-108, 103-106, 111-198, 126, 126-141, 127, 129-141, 142, 142-146, 145-146, 148-163, 149, 154-161, 156, 157, 164-170, 172-187 |
| bench/orchestrators/sampling.py (86) | Bench.ProtoModel | 72 |
| bench/orchestrators/slicing.py (155) | Bench.SliceModel | 13-17, 58-65, 77-86, 89-100, 103-140, 109-111, 118-139, 142-155 |
| bench/orchestrators/views.py (120) | Bench.ContractModel | 21-24, 42-71, 55-57, 74-85 |
| bench/regimes.py (57) |  |  |
| bench/report_schema.py (110) | Bench.ReportModel | 9-12, 15-21, 24-110 |
| bench/schema.py (618) | Bench.LimitsModel, Bench.SchemaModel, Bench.SweepModel, Bench.SweepProps | 18-21, 24-27, 30-34, 37-41, 44-50, 53-59, 54-60, 62-80, 70-80, 72-75, 83-89, 92-96, 99-105, 108-114, 117-126, 128-137, 140-145, 154-160, 164-166, 170-176, 179-186, 189-193, 196-203, 206-212, 215-218, 221-226, 229-237, 240-252, 254-586, 275-308, 312-354, 313-314, 329-333, 356-363, 362-412, 365-370, 372-386, 388-395, 397-407, 409-422, 424-488, 429-435, 436-481, 448-459, 460-481, 464-468, 469-475, 490-504, 506-573, 519-526, 534-552, 590-595, 597-616 |
| bench/seed_sweep.py (36) | Bench.SweepModel | 7, 10-12, 15-35, 22-28, 31-33 |
| bench/utils/hashing.py (26) |  |  |
| bench/utils/import_tools.py (77) |  |  |
| bench/utils/io.py (144) | Bench.PlaceModel, Utils.CachePathModel | 14, 18-24, 20, 43-66, 44-49, 51-56, 69-72, 75-83, 76-81, 83, 86-118, 89, 92-96, 97-101, 105-117, 108-116, 126-134 |
| bench/utils/runtime.py (61) | Bench.ReportProps | 35-46 |
| src/modssc/__about__.py (4) |  |  |
| src/modssc/__main__.py (6) |  |  |
| src/modssc/backends/torch_common.py (56) | Inductive.AdaptModel | 17-31 |
| src/modssc/cache/model.py (100) | Utils.CachePathModel | 6, 9-13, 20-28, 31-39, 42-54, 57-61, 64-73, 76-85, 88-92, 95-100 |
| src/modssc/cli/_utils.py (44) |  |  |
| src/modssc/cli/app.py (164) |  |  |
| src/modssc/cli/augmentation.py (45) |  |  |
| src/modssc/cli/datasets.py (168) |  |  |
| src/modssc/cli/evaluation.py (74) |  |  |
| src/modssc/cli/graph.py (325) |  |  |
| src/modssc/cli/inductive.py (60) |  |  |
| src/modssc/cli/logging.py (10) |  |  |
| src/modssc/cli/preprocess.py (137) |  |  |
| src/modssc/cli/sampling.py (106) |  |  |
| src/modssc/cli/supervised.py (45) |  |  |
| src/modssc/cli/transductive.py (60) |  |  |
| src/modssc/data_augmentation/api.py (91) | Augment.Model, Augment.RegistryModel, Bench.AugModel | 26-28, 38-43, 41-42, 56-59, 66-83, 66-90, 75-77, 86-90 |
| src/modssc/data_augmentation/errors.py (17) |  |  |
| src/modssc/data_augmentation/ops/audio.py (57) | Augment.Model | 43-57 |
| src/modssc/data_augmentation/ops/base.py (5) |  |  |
| src/modssc/data_augmentation/ops/common.py (30) | Augment.Model | 8-30 |
| src/modssc/data_augmentation/ops/core.py (47) |  |  |
| src/modssc/data_augmentation/ops/graph.py (147) | Augment.Model | 14-26, 62-115, 127-147 |
| src/modssc/data_augmentation/ops/tabular.py (97) | Augment.Model | 43-59, 71-97 |
| src/modssc/data_augmentation/ops/text.py (217) | Augment.Model | 14-19, 41-44, 56-66, 63, 77-87, 82-86, 90-104, 98, 101-103, 118-141, 158-217, 166-199, 208-215 |
| src/modssc/data_augmentation/ops/vision.py (232) | Augment.Model | 14-25, 22-35, 46-60, 51-59, 66-84, 104-158, 142-156, 170-232 |
| src/modssc/data_augmentation/optional.py (12) |  |  |
| src/modssc/data_augmentation/plan.py (37) |  |  |
| src/modssc/data_augmentation/registry.py (125) | Augment.Model, Augment.RegistryModel | 12, 13-48, 14-48, 51-66, 68-76, 87-102, 89, 95-99, 105-113 |
| src/modssc/data_augmentation/types.py (80) | Augment.Model | 14-34, 37-56, 75-80 |
| src/modssc/data_augmentation/utils.py (90) | Augment.Model | 29-34, 31, 47-65, 80-90 |
| src/modssc/data_loader/api.py (9) |  |  |
| src/modssc/data_loader/cache.py (311) | DataLoader.IndexModel, DataLoader.LockModel, DataLoader.StoreModel, Utils.CachePathModel | 24-37, 89-106, 97, 99, 100-106, 104-106, 109-112, 134-311, 165-204, 207-214, 211, 217-227, 241-259, 250-259, 267-271, 274-280, 283-311, 288-292, 296-304 |
| src/modssc/data_loader/catalog/audio.py (26) |  |  |
| src/modssc/data_loader/catalog/graph.py (38) |  |  |
| src/modssc/data_loader/catalog/tabular.py (39) |  |  |
| src/modssc/data_loader/catalog/text.py (88) |  |  |
| src/modssc/data_loader/catalog/toy.py (22) |  |  |
| src/modssc/data_loader/catalog/vision.py (56) |  |  |
| src/modssc/data_loader/errors.py (44) |  |  |
| src/modssc/data_loader/formats.py (41) |  |  |
| src/modssc/data_loader/manifest.py (120) | DataLoader.ManifestModel | 24-50, 25-35, 37-45, 47-50, 53-61, 63-75, 77-88, 91-111 |
| src/modssc/data_loader/numpy_adapter.py (66) |  |  |
| src/modssc/data_loader/optional.py (15) |  |  |
| src/modssc/data_loader/providers/base.py (34) |  |  |
| src/modssc/data_loader/providers/common.py (75) | DataLoader.ProviderModel, DataLoader.UriModel | 18-24, 27-41, 44-54, 57-75 |
| src/modssc/data_loader/providers/hf.py (152) | DataLoader.ProviderModel | 36-43, 50-77, 61-64, 70, 79-127, 105-118, 130-139, 135-139, 142-146 |
| src/modssc/data_loader/providers/openml.py (143) | DataLoader.ProviderModel | 24-43, 29-35, 36-37, 38-42, 50-90, 51-53, 53, 54-90, 59, 69-90, 107-115, 117-133 |
| src/modssc/data_loader/providers/pyg.py (241) | DataLoader.PygModel | 21-41, 64-151, 86-100, 100-116, 122, 125-133, 166-185, 188-196, 199-243, 217-218, 220-230, 222-224, 233-239 |
| src/modssc/data_loader/providers/tfds.py (98) | DataLoader.ProviderModel | 15-22, 29-46, 36, 48-85, 76-82, 88-98, 95-97 |
| src/modssc/data_loader/providers/torchaudio.py (198) | DataLoader.ProviderModel | 51-73, 59-62, 75-117, 88, 89-110, 120-128, 131-151, 144-148, 154-164, 174-198, 186-198, 191-197 |
| src/modssc/data_loader/providers/torchvision.py (121) | DataLoader.ProviderModel | 40-58, 44-47, 60-95, 75-90, 98-107, 110-121 |
| src/modssc/data_loader/providers/toy.py (68) | DataLoader.ProviderModel | 39-68, 52-56 |
| src/modssc/data_loader/services/service.py (528) | DataLoader.IndexModel, DataLoader.ServiceModel, DataLoader.StoreModel, DataLoader.UriModel | 71-90, 93-159, 121-159, 165-286, 191-249, 216-218, 216-239, 252-286, 290-381, 318-337, 368-381, 374-377, 383-518, 388-399, 402-434, 437-490, 442-445, 448-451, 453-458, 456-458, 461-477, 463-468, 493-506, 509-518, 513-515 |
| src/modssc/data_loader/storage/files.py (185) | DataLoader.ServiceModel, DataLoader.StoreModel | 29-40, 69-87, 71-75, 78-82, 89-100, 91-113, 92-94, 92-113, 115-126, 119-124, 128-142, 144-180 |
| src/modssc/data_loader/storage/json.py (39) | DataLoader.ServiceModel | 10-35, 38-39 |
| src/modssc/data_loader/types.py (177) | DataLoader.ManifestModel, DataLoader.ServiceModel, Utils.JsonModel | 10-20, 23-35, 44-58, 87-93, 100-155, 112-123, 147-155, 147-153 |
| src/modssc/data_loader/uri.py (33) | DataLoader.UriModel | 13-15, 18-22, 25-33 |
| src/modssc/dependencies/errors.py (23) |  |  |
| src/modssc/dependencies/optional.py (76) |  |  |
| src/modssc/evaluation/metrics.py (129) | Evaluation.Model | 11-15, 25-40, 43-46, 49-73, 76-94, 97-101, 108-118, 121-129 |
| src/modssc/graph/adapters/pyg.py (29) |  |  |
| src/modssc/graph/artifacts.py (135) | Bench.NodeModel, Graph.CacheModel, Graph.FeatModel, Graph.OpsModel | 19-61, 36-48, 56-63, 64-94, 74-94, 106-135 |
| src/modssc/graph/cache.py (342) | Graph.CacheModel, Graph.FeatModel, Utils.CachePathModel | 28-41, 44-60, 92-93, 122-131, 133-175, 145-171, 150-152, 153-160, 162-174, 177-193, 195-242, 201-212, 244-272, 285-342, 293-318, 320-342 |
| src/modssc/graph/construction/api.py (9) |  |  |
| src/modssc/graph/construction/backends/faiss_backend.py (140) | Graph.NeighborModel | 34-108, 78-80, 92-106, 111-140 |
| src/modssc/graph/construction/backends/numpy_backend.py (270) | Graph.KnnModel | 13-16, 19-32, 40-173, 82-87, 89, 102-166, 106, 112-128, 112-120, 130-158, 137, 176-270, 221-237, 239-255, 242-246, 250-251 |
| src/modssc/graph/construction/backends/sklearn_backend.py (87) | Graph.NeighborModel | 12-48, 40-44, 51-87, 79-83 |
| src/modssc/graph/construction/builder.py (144) | Graph.BuildModel | 20-31, 34-146, 52-118 |
| src/modssc/graph/construction/ops/normalize.py (48) | Graph.OpsModel, Graph.WeightProps | 10-48, 16, 34-38 |
| src/modssc/graph/construction/ops/self_loops.py (32) | Graph.OpsModel | 6-32 |
| src/modssc/graph/construction/ops/symmetrize.py (146) | Graph.OpsModel | 10-146, 51-60, 51-144, 56-58, 72-114, 97-114 |
| src/modssc/graph/construction/ops/weights.py (51) | Graph.OpsModel | 9-51 |
| src/modssc/graph/construction/schemes/anchor.py (262) | Graph.AnchorMissing, Graph.AnchorModel | 20-26, 29-50, 53-104, 84-93, 95-99, 138-262, 163-166, 169-174, 178-186, 188-192, 206-250, 207-216, 208, 217-221, 218-231, 237-238 |
| src/modssc/graph/construction/services/service.py (222) | Bench.NodeModel, Graph.BuildModel, Graph.OpsModel, Graph.SpecModel | 26-44, 31-44, 47-222, 93-100, 148-189, 154-160, 162-165, 167-170 |
| src/modssc/graph/errors.py (35) |  |  |
| src/modssc/graph/featurization/api.py (141) | Graph.FeatModel, Graph.SpecModel | 21-27, 30-137, 42-52, 45-52, 54, 69-122, 69-105, 71-104, 112-122, 119 |
| src/modssc/graph/featurization/node2vec.py (92) | Graph.Node2vecModel | 6-19, 22-67, 35-63, 38-63, 42-62, 46-60, 50-57, 59, 70-86, 74-84 |
| src/modssc/graph/featurization/ops/adjacency.py (59) | Graph.FeatModel | 36-44, 46-53 |
| src/modssc/graph/featurization/views/attr.py (9) |  |  |
| src/modssc/graph/featurization/views/diffusion.py (86) | Graph.FeatModel | 25-86, 45-60, 48, 52, 56, 60, 81, 86-89 |
| src/modssc/graph/featurization/views/struct.py (306) | Graph.FeatModel, Graph.WalkModel | 17-26, 29-44, 47-94, 61-94, 66-93, 67-93, 76-86, 114-174, 154-163, 164-168, 195-339, 222-306 |
| src/modssc/graph/fingerprint.py (98) | Graph.ArrayFp, Utils.JsonModel | 33-36, 56-98, 84, 85-103, 85 |
| src/modssc/graph/masks.py (69) | Graph.MaskModel | 11-25, 27-69, 42-46, 48-54, 62-63, 64-65 |
| src/modssc/graph/optional.py (27) |  |  |
| src/modssc/graph/specs.py (302) | Graph.SpecModel, Graph.SpecProps | 26-42, 43-51, 46-49, 53-54, 56-58, 61-107, 78-107, 109-157, 113-136, 114, 117, 120, 159-180, 182-205, 208-243, 228-243, 245-271, 273-286, 288-302 |
| src/modssc/graph/validation.py (49) |  |  |
| src/modssc/hpo/patching.py (31) | Hpo.Model | 8-21, 24-31 |
| src/modssc/hpo/samplers.py (100) | Hpo.Model | 12-15, 18-21, 24-74, 77-81, 84-101 |
| src/modssc/hpo/space.py (112) | Hpo.Model | 15-19, 22-26, 28-77, 37-74, 44-63, 54-56, 66-69, 79-90, 81-84, 86-90, 88-89, 92-105, 97-105, 99-104, 100-103, 108-112 |
| src/modssc/hpo/types.py (23) | Hpo.Model | 12-16, 20-25 |
| src/modssc/inductive/adapters/numpy.py (80) | Inductive.AdaptModel | 20-26, 29-39, 35-38, 42-52, 55-80, 67-69 |
| src/modssc/inductive/adapters/torch.py (227) | Inductive.AdaptModel | 24-33, 36-46, 42-45, 49-58, 50-54, 61-65, 68-75, 72-76, 78-100, 103-113, 116-227, 143-146, 151-153, 156-164, 165-166, 170-172, 173-174, 173-190, 179-190, 195-218, 199-204, 206, 208, 211-218 |
| src/modssc/inductive/backends/torch_backend.py (21) |  |  |
| src/modssc/inductive/base.py (50) |  |  |
| src/modssc/inductive/deep/bundle_factories/factory.py (916) | Deep.BundleModel | 15-24, 27-34, 37-45, 48-54, 66-162, 77-84, 88-102, 91-100, 104-108, 122-129, 135-161, 139-148, 151-154, 165-182, 185-228, 208-213, 209-213, 231-245, 248-283, 286-298, 301-337, 340-350, 353-493, 366-454, 386-422, 389-412, 414-422, 484-493, 496-510, 513-583, 525-549, 573-583, 586-690, 597-600, 602-612, 620-664, 636-646, 642, 648-659, 661-664, 666-672, 667, 668-672, 680-691, 693-786, 716-731, 748-773, 756-773, 771-773, 779-782, 789-916, 799-801, 826-911 |
| src/modssc/inductive/deep/bundles.py (9) |  |  |
| src/modssc/inductive/deep/types.py (17) |  |  |
| src/modssc/inductive/deep/validation.py (34) | Deep.FitModel | 9-36 |
| src/modssc/inductive/errors.py (30) |  |  |
| src/modssc/inductive/methods/adamatch.py (318) | Deep.EmaModel, Deep.FitModel | 74-93, 82-88, 90-91, 92, 93-318, 112-182, 271-281, 271-293, 280-281 |
| src/modssc/inductive/methods/adsh.py (391) | Deep.AdshFitModel, Deep.AdshModel | 39-107, 58-72, 58-83, 59-60, 73-74, 85-90, 98-102, 110-122, 138-148, 150-356, 170-225, 227-246, 231-232, 245-266, 255-350, 257-266, 308-326, 318-324 |
| src/modssc/inductive/methods/co_training.py (486) | Inductive.CoModel, Inductive.PredictModel, Inductive.ViewModel | 34-38, 41-60, 42-52, 63-81, 64-76, 84-88, 110-136, 112-122, 139-160, 141-153, 163-189, 192-208, 232-423, 267-271, 321-327, 329-414, 369-376, 372, 376, 386-393, 389, 393, 436-438, 441-469, 463-469, 471-486, 474-486 |
| src/modssc/inductive/methods/comatch.py (582) | Deep.BankModel, Deep.CoFitModel | 34-55, 58-84, 65-68, 71-73, 76-84, 78-83, 98-118, 139-142, 143-145, 148-228, 148-155, 157-180, 168-178, 182-197, 192-193, 194-196, 199-206, 208-228, 211-212, 215-217, 230-582, 257-371, 264-270, 267-295, 270-283, 285-295, 324-330, 348-371, 373-380, 412, 413-577, 428-577, 428-431, 433-459, 435, 445-459, 445-453, 455-459, 461-489, 491-496, 493-531, 493-498, 498, 498-573, 500-508, 502-531, 509-573, 527-530, 531, 575-577 |
| src/modssc/inductive/methods/daso.py (562) | Deep.DasoFitModel, Deep.DasoModel | 55-67, 70-76, 79-165, 196-217, 234-238, 240-562, 269-336, 319-336, 338-345, 355-359, 360, 376-557, 380-411, 413-424, 426-557, 427-439, 441-447, 449-458, 449-493, 460-468, 470-524, 470, 473-475, 481-493, 486-487, 495-524, 511-518, 539-541, 546-557, 546-555 |
| src/modssc/inductive/methods/deep_co_training.py (560) | Deep.AdvModel, Deep.DctModel | 36-38, 41-43, 53-154, 101-102, 111-122, 126-128, 126-154, 129-154, 135-138, 147-152, 157-171, 202-494, 222-277, 232, 277-292, 287-292, 294-340, 304-340, 305-338, 337-478, 338, 402-409, 422-472, 427-472, 454-463, 474-478, 551-554 |
| src/modssc/inductive/methods/deep_utils.py (9) |  |  |
| src/modssc/inductive/methods/defixmatch.py (321) | Deep.DefixModel, Deep.LossModel | 40-46, 83-321, 83-328, 102-176, 116-123, 202-323, 209-239, 241-255, 246-315, 246-312, 257-319, 268-303 |
| src/modssc/inductive/methods/democratic_co_learning.py (524) | Inductive.DemModel, Inductive.DemTorchModel | 37-40, 43-53, 56-62, 73-87, 90-105, 108-129, 132-139, 142-151, 154-167, 160-161, 168-181, 171, 174, 186-205, 208-225, 213, 217-218, 228-233, 258-348, 275, 276, 295-343, 296-338, 297-298, 314-320, 325-338, 325, 328, 345-346, 349-431, 375-424, 376-419, 436-444, 439-442, 456-461, 462-468, 470-511, 479-496, 498-511, 513-524, 521-524 |
| src/modssc/inductive/methods/fixmatch.py (244) | Deep.BatchModel, Deep.FitModel, Deep.SharpModel | 1, 2, 74-244, 92-145, 115-171, 150-154, 154-171, 169-171, 170-239, 174-194, 195-202, 203-223, 203-222, 204-235, 204-222, 208, 211-216, 218-222 |
| src/modssc/inductive/methods/flexmatch.py (345) | Deep.BatchModel, Deep.FitModel, Deep.FlexModel | 76-150, 77-83, 85-103, 105-150, 130, 153-345, 173-230, 240, 257, 285-289, 285-333, 290-333, 294-333, 297-298, 300-301, 332 |
| src/modssc/inductive/methods/free_match.py (334) | Deep.EmaModel, Deep.FitModel | 80-85, 80-112, 87-112, 89-90, 101-110, 135-334, 157-212, 271-305, 279-286, 279-288, 286-287, 301-303 |
| src/modssc/inductive/methods/helpers/classifier_bridge.py (279) | Deep.FitModel, Inductive.DispatchModel, Inductive.LoopModel, Inductive.SelectModel, Inductive.Types | 35-41, 53-63, 70-77, 82-90, 91-107, 108-115, 120-130, 132-189, 133-156, 145-151, 149, 149-151, 159-181, 161, 178, 184-189, 192-206, 200-202, 204, 209-231, 217-229, 227-228, 247, 262-273, 271-272 |
| src/modssc/inductive/methods/helpers/torch_support.py (450) | Deep.BankModel, Deep.BatchModel, Deep.BundleModel, Deep.EmaModel, Deep.FitModel, Deep.GraphModel, Deep.NoisyModel, Deep.SharpModel, Deep.TrinetModel | 19-28, 31-47, 62-71, 67-71, 74-78, 81-84, 87-139, 115-127, 117-122, 118-120, 129-133, 146-148, 165-183, 192-203, 245-293, 260-276, 269-278, 282-292, 295-313, 301-308, 311-313, 315-316, 319-325, 328-338, 332-338, 333-338, 341-380, 373-379, 382, 418-450, 445-450 |
| src/modssc/inductive/methods/mean_teacher.py (265) | Deep.BatchModel, Deep.ConsModel, Deep.EnsModel | 1, 2, 69-81, 83-89, 91-93, 92-94, 95-265, 112-172, 172, 175, 180-183, 191, 206-260, 228-233, 236-240, 242, 257-263 |
| src/modssc/inductive/methods/meta_pseudo_labels.py (444) | Deep.LossModel, Deep.MplModel | 1, 2, 44-66, 47-48, 54-55, 58-65, 76-91, 129-135, 137-153, 144-153, 151-153, 155-398, 178-249, 196-202, 236-248, 254-267, 276-372, 276, 296-376, 302-319, 315-319, 321-358, 323-330, 332-341, 334-339, 349-356, 358-363, 366-372 |
| src/modssc/inductive/methods/mixmatch.py (395) | Deep.BatchModel, Deep.EnsModel, Deep.MixModel | 1, 2, 44-85, 88-102, 105-109, 126-148, 151-167, 170-182, 206-383, 224-283, 285-287, 290-378, 299, 304-306, 304-378, 308-378, 314-316, 318-330, 323, 330-333, 336-347, 356-366 |
| src/modssc/inductive/methods/noisy_student.py (376) | Deep.LossModel, Deep.NoisyModel | 1, 2, 40-42, 45-60, 95-101, 103-146, 118-128, 129-146, 148-376, 180-181, 219-226, 244-246, 277-371, 280-284, 286-302, 303-317, 319, 333-353, 333-350, 340-343, 347-350 |
| src/modssc/inductive/methods/pi_model.py (218) | Deep.BatchModel, Deep.ConsModel | 1, 2, 69-218, 85-135, 137-140, 151, 166-213, 182-188, 190-198, 191-195 |
| src/modssc/inductive/methods/pseudo_label.py (228) | Inductive.DispatchModel, Inductive.LoopModel, Inductive.PredictModel | 39-43, 65-137, 97-130, 103-120, 124-125, 132-135, 165-197, 206-220, 209, 213-220, 222-228, 225 |
| src/modssc/inductive/methods/s4vm.py (214) | Inductive.DispatchModel, Inductive.S4vmModel | 58-183, 62-63, 63-128, 92, 101-120, 102-110, 102-103, 108-110, 112-117, 117, 130-191, 148, 157-178, 158-166, 158-159, 164-166, 168-175, 175, 185-204, 188, 192-193, 206-214, 209, 212-213 |
| src/modssc/inductive/methods/self_training.py (491) | Inductive.DispatchModel, Inductive.GroupModel, Inductive.LoopModel, Inductive.PredictModel, Inductive.Types | 36-49, 50-59, 62-72, 75-104, 76-85, 107-138, 127-137, 140-223, 161-163, 166-211, 171-211, 176-189, 191-205, 245-359, 273-299, 278-301, 303-352, 308-341, 345-346, 348-349, 354-357, 375-398, 412-469, 469-483, 472, 476-483, 485-491, 488 |
| src/modssc/inductive/methods/setred.py (523) | Inductive.DispatchModel, Inductive.PredictModel, Inductive.SetredModel, Inductive.Types | 52-63, 66-76, 91-104, 107-126, 120-125, 129-158, 145-155, 161-192, 176-191, 187, 196-206, 228-361, 274-355, 279-288, 289-341, 294-296, 315-318, 501-515, 504, 508-515, 517-523, 520 |
| src/modssc/inductive/methods/simclr_v2.py (590) | Deep.SimclrModel | 92-108, 111-127, 130-148, 139-148, 144-146, 180-196, 219-546, 266-310, 287-302, 312-333, 317-318, 327-328, 335-373, 375-389, 391-420, 422-533, 460-530, 535-540 |
| src/modssc/inductive/methods/softmatch.py (351) | Deep.EmaModel, Deep.FitModel | 79-140, 83-102, 90-97, 98-99, 100, 104-114, 104-140, 116-129, 121-128, 130-141, 132-139, 142-351, 165-220, 279-313, 287-302, 287-289, 292-301, 299-301 |
| src/modssc/inductive/methods/supervised.py (118) | Bench.ColumnsProps, Inductive.DispatchModel | 52-104, 55-56, 96-110, 99, 112-118, 115 |
| src/modssc/inductive/methods/temporal_ensembling.py (265) | Deep.BatchModel, Deep.ConsModel, Deep.EnsModel | 1, 2, 70-265, 87-143, 159-258, 160-260, 160, 161, 161-168, 162-164, 184-253, 200-207, 206, 209-211, 213-222, 215-217, 232, 250, 252, 255-260, 255-258 |
| src/modssc/inductive/methods/tri_training.py (404) | Inductive.PredictModel, Inductive.TriModel | 38-42, 64-277, 94-99, 104-112, 114-160, 121-156, 122, 198-212, 279-389, 297-312, 342-347, 350, 371-389, 380, 391-404 |
| src/modssc/inductive/methods/trinet.py (667) | Bench.InjectModel, Deep.TrinetModel, Deep.TrinetTrainModel | 40-55, 58-64, 67-70, 76-90, 93-101, 104-157, 138-151, 139-151, 190-231, 205-213, 241-246, 248-312, 271-312, 284-312, 285-289, 305-312, 315-349, 353-370, 353-371, 356-357, 440-463, 470-588, 471-479, 476, 480-490, 480-586, 480, 481-490, 489, 492-493, 492-535, 496, 496-586, 496-535, 503-513, 507-509, 514-524, 514, 522, 533, 537-586, 537-566, 537, 538, 539-575, 561-566, 568-575, 569-571, 577-586, 586, 621-664, 628-639, 631-639 |
| src/modssc/inductive/methods/uda.py (281) | Deep.BatchModel, Deep.FitModel, Deep.LossModel | 37-52, 88-281, 106-159, 171, 220-233, 220-247, 221-255, 221-235, 240-249, 244-247, 246-249 |
| src/modssc/inductive/methods/utils.py (9) |  |  |
| src/modssc/inductive/methods/vat.py (353) | Deep.AdvModel, Deep.ConsModel | 1, 2, 54-63, 66-68, 71-84, 109-196, 122-123, 139-187, 149-187, 152-185, 195-196, 198-353, 217-271, 227-229, 277-280, 306-348, 330 |
| src/modssc/inductive/optional.py (20) |  |  |
| src/modssc/inductive/registry.py (164) | Utils.BuiltinModel | 29-164, 33-143 |
| src/modssc/inductive/seed.py (41) |  |  |
| src/modssc/inductive/types.py (42) | Inductive.AdaptModel | 28-42 |
| src/modssc/inductive/validation.py (87) | Inductive.AdaptModel, Inductive.LoopModel | 14-21, 22-29, 24-30, 33-40, 43-47, 50-86, 57-58, 64-77, 79-83 |
| src/modssc/preprocess/api.py (9) |  |  |
| src/modssc/preprocess/cache.py (341) | Preprocess.DemoHash, Preprocess.Model, Utils.CachePathModel | 31-44, 66-68, 89-225, 160-163, 172-225, 247-253, 255-258, 260-299, 271-276, 299, 301-319 |
| src/modssc/preprocess/catalog.py (374) | Preprocess.DemoHash | 334-373 |
| src/modssc/preprocess/errors.py (25) |  |  |
| src/modssc/preprocess/fingerprint.py (36) | Utils.JsonModel | 9-14, 24-31 |
| src/modssc/preprocess/models.py (107) |  |  |
| src/modssc/preprocess/models_backends/base.py (13) |  |  |
| src/modssc/preprocess/models_backends/open_clip.py (83) | Preprocess.EncodeModel | 48-83, 53-58, 61-63 |
| src/modssc/preprocess/models_backends/sentence_transformers.py (61) |  |  |
| src/modssc/preprocess/models_backends/stub.py (47) | Preprocess.EncodeModel | 12-21, 30-47, 43 |
| src/modssc/preprocess/models_backends/torchaudio_wav2vec2.py (110) |  |  |
| src/modssc/preprocess/models_backends/torchvision_image.py (158) | Preprocess.EncodeModel | 53-58, 125-136, 138-158, 153-156 |
| src/modssc/preprocess/numpy_adapter.py (32) |  |  |
| src/modssc/preprocess/optional.py (19) |  |  |
| src/modssc/preprocess/plan.py (93) | Preprocess.PlanModel, Preprocess.Types | 13-22, 25-33, 35-47, 38-44, 53-90, 66-88, 77-78, 93-95 |
| src/modssc/preprocess/registry.py (57) |  |  |
| src/modssc/preprocess/services/pipeline.py (735) | Preprocess.Model, Preprocess.Types | 27-30, 268-270, 273-291, 281-290, 294-304, 301-303, 307-323, 326-336, 339-343, 346-410, 357-361, 364-398, 365-393, 413-730, 461-495, 463-467, 494-495, 497-672, 516-519, 516-533, 521-533, 535-548, 551-589, 554-564, 647-652, 674-698, 679-684, 686 |
| src/modssc/preprocess/steps/audio/load_waveform.py (184) | Preprocess.WaveModel | 26-35, 38-47, 50-56, 60-68, 70-121, 127-184, 144-152, 154-184 |
| src/modssc/preprocess/steps/audio/spectrogram.py (66) |  |  |
| src/modssc/preprocess/steps/audio/wav2vec2.py (19) |  |  |
| src/modssc/preprocess/steps/base.py (49) | Preprocess.DgiModel, Preprocess.PcaModel | 13-17, 26-33 |
| src/modssc/preprocess/steps/core/cast_dtype.py (18) |  |  |
| src/modssc/preprocess/steps/core/cast_fp16.py (18) |  |  |
| src/modssc/preprocess/steps/core/copy_raw.py (17) |  |  |
| src/modssc/preprocess/steps/core/ensure_2d.py (33) |  |  |
| src/modssc/preprocess/steps/core/pca.py (81) | Preprocess.PcaModel | 22-52, 36-42, 50-52, 56-83, 71-81 |
| src/modssc/preprocess/steps/core/random_projection.py (39) | Preprocess.ScaleModel | 19-33, 35-39 |
| src/modssc/preprocess/steps/core/to_numpy.py (18) |  |  |
| src/modssc/preprocess/steps/core/to_torch.py (71) |  |  |
| src/modssc/preprocess/steps/embeddings/auto.py (121) | Preprocess.EncodeModel | 17-24, 27-34, 37-45, 48-49, 52-59, 93-113, 93-121 |
| src/modssc/preprocess/steps/embeddings/common.py (60) | Preprocess.EncodeModel | 11-22 |
| src/modssc/preprocess/steps/graph/attach_edge_weight.py (25) | Preprocess.EdgeModel | 16-25, 23 |
| src/modssc/preprocess/steps/graph/dgi.py (255) | Preprocess.DgiModel, Preprocess.Spec | 15-20, 23-37, 40-46, 49-190, 163-185, 197-203, 205-255, 206-226, 210-218, 211, 222-226 |
| src/modssc/preprocess/steps/graph/edge_sparsify.py (45) | Preprocess.DemoHash, Preprocess.EdgeModel | 17-45, 29, 30-32, 34, 35, 36-38, 40-44 |
| src/modssc/preprocess/steps/graph/node2vec.py (145) | Graph.Node2vecModel, Preprocess.Spec | 42-43, 97-151 |
| src/modssc/preprocess/steps/graph/sparse_adjacency.py (43) |  |  |
| src/modssc/preprocess/steps/labels/encode.py (18) | Labels.Model | 15-18 |
| src/modssc/preprocess/steps/labels/ensure_onehot.py (33) | Labels.Model | 16-33 |
| src/modssc/preprocess/steps/labels/to_numpy.py (18) |  |  |
| src/modssc/preprocess/steps/labels/to_torch.py (57) | Preprocess.DemoHash | 48 |
| src/modssc/preprocess/steps/tabular/impute.py (52) | Preprocess.ScaleModel | 24-44, 46-52 |
| src/modssc/preprocess/steps/tabular/one_hot.py (158) | Preprocess.OneHotModel | 12, 18-27, 33-42, 38-39, 45-53, 56-63, 66-73, 85-130, 132-158, 139-158 |
| src/modssc/preprocess/steps/tabular/standard_scaler.py (57) | Preprocess.ScaleModel | 23-42, 44-57 |
| src/modssc/preprocess/steps/text/ensure_strings.py (16) |  |  |
| src/modssc/preprocess/steps/text/hash_tokenizer.py (58) | Preprocess.TokenModel | 11-15, 18-59, 49-57 |
| src/modssc/preprocess/steps/text/sentence_transformer.py (22) |  |  |
| src/modssc/preprocess/steps/text/tfidf.py (63) |  |  |
| src/modssc/preprocess/steps/text/vocab_tokenizer.py (92) | Preprocess.TokenModel | 31-35, 39-60, 53-60, 58-60, 62-92, 78-83 |
| src/modssc/preprocess/steps/vision/channels_order.py (39) | Preprocess.VisionModel | 17-39, 37-38 |
| src/modssc/preprocess/steps/vision/ensure_num_channels.py (48) | Preprocess.VisionModel | 17-48, 25-27 |
| src/modssc/preprocess/steps/vision/layout.py (61) | Preprocess.VisionModel | 7, 10-22, 25-37, 40-61, 55 |
| src/modssc/preprocess/steps/vision/normalize.py (40) | Preprocess.VisionModel | 18-40, 34 |
| src/modssc/preprocess/steps/vision/openclip.py (19) |  |  |
| src/modssc/preprocess/steps/vision/resize.py (44) | Preprocess.VisionModel | 13-20, 17-18, 28-44 |
| src/modssc/preprocess/steps/vision/squeeze.py (28) | Preprocess.VisionModel | 17-28 |
| src/modssc/preprocess/steps/vision/zca_whitening.py (66) | Preprocess.PcaModel | 22-51, 43, 45-47, 49-50, 53-66 |
| src/modssc/preprocess/store.py (50) | Preprocess.Types | 8-50 |
| src/modssc/preprocess/types.py (74) | Preprocess.Types | 10, 13-25, 27-33, 35-40 |
| src/modssc/runtime/device.py (74) | Inductive.AdaptModel | 10-50, 40-50, 66-73 |
| src/modssc/runtime/logging.py (109) | Utils.LoggingModel | 14-18, 20-21, 23, 32-37, 40-46, 49-55, 70-76, 79-100 |
| src/modssc/runtime/paths.py (37) | Utils.CachePathModel | 9-18, 15, 21-30, 33-37 |
| src/modssc/sampling/api.py (9) |  |  |
| src/modssc/sampling/common.py (18) | Sampling.Model | 6-18 |
| src/modssc/sampling/errors.py (17) |  |  |
| src/modssc/sampling/fingerprint.py (19) | Sampling.HistoryModel, Utils.JsonModel | 9-11, 14-17, 14-19 |
| src/modssc/sampling/imbalance.py (61) | Sampling.Model | 8-61, 28-33, 44-50, 53-58 |
| src/modssc/sampling/labeling.py (142) | Sampling.Model | 14-142, 38-50, 54-107, 54-74, 64-65, 73-74, 76-82, 84-107, 88-96, 99-107, 110-116 |
| src/modssc/sampling/plan.py (279) | Sampling.Model, Sampling.PlanModel | 8-20, 20-34, 36-42, 45-52, 54-67, 69-76, 78-86, 88-105, 107, 110-127, 122, 126, 129-139, 141-167, 147-149, 150-151, 152-156, 157-159, 171-189, 185, 186, 191-198, 200-219, 207-209, 210-212, 216, 217, 222-229, 231-242, 237-241, 244-265, 248-254, 271-276, 279-283 |
| src/modssc/sampling/result.py (159) | Sampling.HistoryModel, Sampling.Model, Sampling.StorageModel, Sampling.ValidateModel | 12-39, 20-23, 35-37, 41-42, 44-48, 50-99, 51-62, 64-66, 101-129, 104, 108-114, 131-159 |
| src/modssc/sampling/services/service.py (482) | Sampling.HistoryModel, Sampling.Model, Sampling.ReportModel, Utils.CachePathModel | 32-45, 48-52, 48-155, 52, 63-73, 63-155, 79-135, 86-93, 98-101, 98-135, 112-135, 158-166, 168-181, 189-198, 192-198, 201-383, 213-346, 230-252, 231, 262, 263-282, 288, 289-308, 313-318, 315, 321, 324-326, 333-346, 386-475, 398-459, 403-434, 403-413, 440-442, 453-459, 478-482 |
| src/modssc/sampling/splitters.py (180) | Sampling.Model | 8-18, 21-63, 36-47, 46-47, 49-56, 66-97, 80-81, 83-86, 89-90, 92-95, 100-137, 113-117, 127-128, 129-132, 140-147, 150-180, 162-169, 168-169, 171-179 |
| src/modssc/sampling/stats.py (61) | Sampling.ReportModel | 11-19, 22-43, 46-62, 49-50 |
| src/modssc/sampling/storage.py (63) | Sampling.StorageModel | 12-37, 14-15, 16, 30-34, 36, 40-63, 45-51 |
| src/modssc/supervised/api.py (114) | Supervised.RegistryModel | 12-27, 17-21, 61-114, 78-103, 82-92, 93-101, 107-111, 108-111 |
| src/modssc/supervised/backends/numpy/knn.py (161) | Supervised.KnnModel | 35-52, 54-55, 57-95, 97-111, 113-154, 126-149, 130-149, 137-145, 147-149, 151-153, 159-162 |
| src/modssc/supervised/backends/sklearn/common.py (70) |  |  |
| src/modssc/supervised/backends/sklearn/extra_trees.py (86) |  |  |
| src/modssc/supervised/backends/sklearn/gradient_boosting.py (77) |  |  |
| src/modssc/supervised/backends/sklearn/knn.py (72) |  |  |
| src/modssc/supervised/backends/sklearn/linear_svm.py (76) |  |  |
| src/modssc/supervised/backends/sklearn/logreg.py (89) |  |  |
| src/modssc/supervised/backends/sklearn/naive_bayes.py (134) |  |  |
| src/modssc/supervised/backends/sklearn/random_forest.py (86) |  |  |
| src/modssc/supervised/backends/sklearn/ridge.py (85) |  |  |
| src/modssc/supervised/backends/sklearn/svm_rbf.py (103) |  |  |
| src/modssc/supervised/backends/torch/audio_cnn.py (277) | Deep.BundleModel, Supervised.NetModel | 46-93, 61-74, 170-266 |
| src/modssc/supervised/backends/torch/audio_cnn_scratch.py (214) | Supervised.NetModel | 99-201, 172-190 |
| src/modssc/supervised/backends/torch/audio_pretrained.py (231) | Deep.BundleModel, Supervised.AudioModel | 24-44, 47-65, 48-51, 53-65, 53-56, 61-62, 61-65, 93-95, 98-113, 125-217, 141-160, 199-209, 200-205, 205-209, 219-231 |
| src/modssc/supervised/backends/torch/common.py (138) | Supervised.AudioModel, Supervised.NetModel, Supervised.TextModel | 25-29, 27-29, 40-41, 89-90, 123-135 |
| src/modssc/supervised/backends/torch/graphsage_inductive.py (244) | Supervised.NetModel, Supervised.SageModel | 34-42, 45-52, 55-76, 56-70, 83-128, 118-121, 132-213, 140-163, 153, 165-172, 177-183, 184-190, 200-207, 215-246 |
| src/modssc/supervised/backends/torch/image_cnn.py (258) | Deep.BundleModel, Supervised.NetModel | 61-74, 77-86, 129-131, 133-159, 136-153, 155-159, 161-258, 195-211, 236-246, 240-246 |
| src/modssc/supervised/backends/torch/image_pretrained.py (381) | Deep.BundleModel, Supervised.NetModel | 82-150, 195-257, 200-235, 237-240, 267-379, 302-307 |
| src/modssc/supervised/backends/torch/knn.py (177) | Supervised.TorchKnnModel | 43-45, 51-109, 69-72, 73-74, 97-101, 111-122, 124-172, 130-133, 144-165, 148-164, 152-159, 165, 167-169, 174-177 |
| src/modssc/supervised/backends/torch/logreg.py (134) | Supervised.NetModel | 43-115, 57-76, 78-81, 95, 96-106, 100-106, 117-134 |
| src/modssc/supervised/backends/torch/lstm_scratch.py (202) | Supervised.NetModel | 98-185, 160-178, 187-203 |
| src/modssc/supervised/backends/torch/mlp.py (180) | Supervised.NetModel | 63-64, 66-161, 84-103, 105-116, 122, 142-152, 146-152, 163-180 |
| src/modssc/supervised/backends/torch/text_cnn.py (238) | Deep.BundleModel, Supervised.TextModel | 29-55, 29-67, 57-67, 60-64, 61-63, 61, 63, 65, 76-103, 101-103, 105-121, 123-224, 143-179, 160-174, 176-177, 226-238 |
| src/modssc/supervised/base.py (97) | Supervised.KnnModel | 44-48, 90-93 |
| src/modssc/supervised/errors.py (38) |  |  |
| src/modssc/supervised/optional.py (45) | Supervised.RegistryModel | 10-20, 38-41 |
| src/modssc/supervised/registry.py (106) | Supervised.RegistryModel | 10-11, 14-30, 33-56, 59-73, 65-73, 76-82, 80-81, 96-100, 103-107 |
| src/modssc/supervised/registry_data.py (310) | Supervised.RegistryProps | 4-30 |
| src/modssc/supervised/types.py (44) | Supervised.RegistryModel | 9-18, 22-28, 31-36 |
| src/modssc/supervised/utils.py (76) | Labels.Model, Supervised.KnnModel | 41-51, 54-68, 71-76 |
| src/modssc/transductive/adapters/pyg.py (73) |  |  |
| src/modssc/transductive/backends/numpy_backend.py (129) | Transductive.CgModel, Transductive.FixedModel, Transductive.PoissonModel, Transductive.PropModel | 9-15, 18-43, 46-82, 85-129, 103, 109-127, 111, 117 |
| src/modssc/transductive/backends/torch_backend.py (149) | Transductive.CgModel, Transductive.FixedModel, Transductive.PoissonModel | 27-65, 44-49, 68-106, 80-85, 109-149, 131-147 |
| src/modssc/transductive/base.py (55) | Transductive.FitTypes | 20-28 |
| src/modssc/transductive/errors.py (30) |  |  |
| src/modssc/transductive/methods/classic/common.py (21) | Transductive.LaplaceModel, Transductive.LazyModel | 6-9, 12-21, 15-18 |
| src/modssc/transductive/methods/classic/dynamic_label_propagation.py (317) | Transductive.DynamicModel, Transductive.LazyModel | 28-35, 36-52, 43-51, 46, 55-111, 86, 90, 100-109, 101, 101-102, 104, 104-106, 113-201, 121, 178, 277-312 |
| src/modssc/transductive/methods/classic/graph_mincuts.py (278) | Transductive.MincutModel | 51-73, 62-71, 66-71, 76-226, 162-201, 203-226, 210, 216-218, 244-277 |
| src/modssc/transductive/methods/classic/label_propagation.py (323) | Bench.ResolveModel, Transductive.FitModel, Transductive.PropModel, Transductive.TorchModel | 33-50, 53-129, 86, 93-102, 104-105, 111-129, 114-122, 116-117, 119-122, 124, 130-199, 147-183, 162-170, 182-199, 185-192, 194, 221-247, 285-318, 298 |
| src/modssc/transductive/methods/classic/label_spreading.py (299) | Transductive.FitModel, Transductive.PropModel, Transductive.TorchModel | 33-48, 51-110, 75-84, 86-87, 93-110, 97-103, 100-103, 113-180, 129-165, 144-152, 163-180, 167-173, 175, 197-223, 261-294 |
| src/modssc/transductive/methods/classic/laplace_learning.py (256) | Transductive.LaplaceModel | 34-88, 59-62, 64, 65-66, 68, 68-88, 69, 73, 91-151, 123-126, 128, 129, 131, 132, 136, 218-251 |
| src/modssc/transductive/methods/classic/lazy_random_walk.py (277) | Transductive.LazyModel | 33-48, 45-48, 49-51, 56-104, 81-83, 85-104, 86, 90-92, 107-168, 153-155, 239-272 |
| src/modssc/transductive/methods/classic/tsvm.py (235) | Transductive.TsvmModel | 23-32, 33-35, 39-46, 45-46, 61-93, 79-93, 129-225, 182, 183-220, 187-197, 188, 194-197, 202, 204-205, 220, 232-234 |
| src/modssc/transductive/methods/gnn/appnp.py (152) | Gnn.NetModel, Gnn.PrepModel, Gnn.TrainModel | 41-49, 43-49, 43-50, 87-134, 98, 136-152 |
| src/modssc/transductive/methods/gnn/chebnet.py (171) | Gnn.NetModel, Gnn.PrepModel, Gnn.TrainModel | 37-59, 39-40, 42-55, 51-55, 71, 107-153, 118, 155-171 |
| src/modssc/transductive/methods/gnn/common.py (418) | Gnn.GrafnFitModel, Gnn.GrandFitModel, Gnn.NetModel, Gnn.PrepModel, Gnn.TrainModel | 83-98, 101-120, 123-148, 137-138, 140, 151-156, 158-165, 158-172, 167-172, 168-170, 175-180, 179-260, 233-247, 248, 263-289, 292-322, 341-418, 364-407, 381, 381-407, 409-410 |
| src/modssc/transductive/methods/gnn/gat.py (264) | Gnn.GatModel, Gnn.TrainModel | 18-45, 36-40, 48-87, 89-121, 92, 95-99, 101-111, 124-152, 154-160, 200-246, 248-264, 252-258, 262 |
| src/modssc/transductive/methods/gnn/gcn.py (142) | Gnn.NetModel, Gnn.TrainModel | 36-38, 50-56, 78-123, 89, 101-121, 126-142 |
| src/modssc/transductive/methods/gnn/gcnii.py (165) | Gnn.NetModel, Gnn.PrepModel, Gnn.TrainModel | 45-62, 50-59, 51-53, 100-148, 111, 150-165 |
| src/modssc/transductive/methods/gnn/grafn.py (388) | Gnn.GrafnFitModel, Gnn.GrafnModel, Gnn.TrainModel | 30-38, 31-33, 41-49, 42-45, 52-66, 69-95, 78, 83-87, 116-117, 142-158, 177-185, 187-358, 199, 201-207, 216-227, 237-238, 240-242, 256-352, 256-333, 259-305, 295, 296, 298-304, 298, 299, 307-329, 307-308, 314-317, 335, 336-342, 343, 343-352, 354-355, 360-380, 383-388, 387, 388 |
| src/modssc/transductive/methods/gnn/grand.py (222) | Gnn.GrandFitModel, Gnn.PrepModel, Gnn.TrainModel | 17-23, 26-40, 56-63, 65-190, 72-78, 89-104, 101, 106-184, 107-146, 109-142, 111-125, 112, 112-120, 129-130, 130-136, 133-140, 149, 150-162, 152-159, 164-184, 164, 186-187, 192-222, 213-220 |
| src/modssc/transductive/methods/gnn/graphhop.py (375) | Gnn.GraphHopModel, Gnn.HopModel, Gnn.TrainModel | 27-38, 41-61, 44-54, 64-73, 76-77, 88-89, 91-92, 94-150, 94-166, 106-116, 110-166, 127-162, 133-150, 133-144, 134-138, 155, 171-185, 208-367, 220, 246, 277-285, 278-283, 288-289, 288-310, 289, 310, 313-322, 325, 325-362, 326-333, 327-332, 337-356, 358-362, 361, 364-365, 369-375 |
| src/modssc/transductive/methods/gnn/graphsage.py (143) | Gnn.NetModel, Gnn.TrainModel | 30-33, 45, 80-125, 91, 127-143 |
| src/modssc/transductive/methods/gnn/h_gcn.py (419) | Gnn.CoarsenModel, Gnn.HgcnModel, Gnn.PrepModel, Gnn.TrainModel | 25-46, 32-40, 37-40, 49-55, 50-52, 53-54, 57-116, 58-116, 65-68, 72-87, 73-75, 80-87, 90-91, 92-110, 95-103, 97-103, 112-116, 118-126, 119-121, 123, 124, 129-144, 146-161, 155-156, 159-161, 184-202, 204-238, 215-223, 225-233, 245-255, 282-394, 282-373, 303, 335-343, 340-343, 345-362, 345-347, 396-419 |
| src/modssc/transductive/methods/gnn/n_gcn.py (310) | Gnn.NgcnModel, Gnn.PrepModel, Gnn.TrainModel | 25-51, 25-49, 33-43, 38-41, 52-56, 54-58, 82-90, 108-138, 127-138, 141-147, 149-157, 164-175, 200-274, 200-290, 223, 253-261, 253-258, 257-261, 292-310 |
| src/modssc/transductive/methods/gnn/planetoid.py (216) | Graph.Node2vecModel | 78-194, 175-180, 176-180 |
| src/modssc/transductive/methods/gnn/sgc.py (126) | Gnn.NetModel, Gnn.PrepModel, Gnn.TrainModel | 17-22, 18-22, 58-106, 69, 108-126 |
| src/modssc/transductive/methods/pde/p_laplace_learning.py (298) | Transductive.PLaplaceModel | 19-33, 36-42, 55-66, 69-228, 89-94, 105-108, 120-123, 142, 149-180, 149-170, 172-175, 182-212, 189-209, 191-192, 194-195, 222-224, 264-293 |
| src/modssc/transductive/methods/pde/poisson_learning.py (340) | Bench.ResolveModel, Transductive.PoissonModel, Transductive.PoissonProps | 22-55, 58-84, 87-155, 115-116, 135-142, 149-150, 158-238, 188-189, 213-219, 241-282, 254-282, 300-335 |
| src/modssc/transductive/methods/pde/poisson_mbo.py (276) | Transductive.MboModel | 23-33, 36-40, 52-62, 65-87, 90-186, 105-110, 126-142, 148-150, 156-161, 157-158, 157-159, 168-183, 169-174, 170-172, 170-171, 177-181, 178, 183, 189-204 |
| src/modssc/transductive/methods/utils.py (221) | Labels.Model, Transductive.PropModel, Transductive.TorchModel, Transductive.Types | 19-36, 38-64, 67-98, 101-106, 109-128, 135-152, 151, 155-163, 162, 166-187, 183-186, 190-221 |
| src/modssc/transductive/operators/clamp.py (36) | Labels.Model, Transductive.FixedModel, Transductive.PropModel | 6-23, 10-17, 26-31, 34-36 |
| src/modssc/transductive/operators/laplacian.py (60) | Transductive.PoissonModel | 15-33, 36-62 |
| src/modssc/transductive/operators/normalize.py (44) |  |  |
| src/modssc/transductive/operators/spmm.py (47) |  |  |
| src/modssc/transductive/optional.py (14) |  |  |
| src/modssc/transductive/registry.py (113) | Utils.BuiltinModel | 33-92 |
| src/modssc/transductive/solvers/cg.py (49) |  |  |
| src/modssc/transductive/solvers/fixed_point.py (105) | Transductive.FixedModel | 20-51, 20-32, 41-45, 46, 54-104, 86-98, 96-98, 99 |
| src/modssc/transductive/types.py (24) |  |  |
| src/modssc/transductive/validation.py (78) | Transductive.DynamicModel, Transductive.FitModel, Transductive.LaplaceModel, Transductive.PoissonModel | 14-78, 29-45, 47-53, 55-70, 72-78, 73 |
| src/modssc/utils/imports.py (16) |  |  |
| src/modssc/utils/io.py (30) | Sampling.StorageModel, Utils.Model | 8-18, 22-31 |
| src/modssc/utils/numpy.py (17) | Inductive.AdaptModel | 8-17 |
| src/modssc/utils/registry.py (126) | Utils.BuiltinModel, Utils.Model | 10-32, 35-39, 42-135, 50-53, 56-106 |
| src/modssc/utils/seed.py (12) | Graph.WalkModel, Utils.Model | 4-12, 6-11, 6, 7-11, 7, 8, 9, 10, 11 |
| src/modssc/utils/shape.py (13) |  |  |
| src/modssc/views/api.py (9) |  |  |
| src/modssc/views/errors.py (9) |  |  |
| src/modssc/views/plan.py (128) | Views.Model | 11-28, 30-50, 53-60, 62-68, 77-96, 83-84, 86-96, 99-128 |
| src/modssc/views/services/service.py (244) | Views.Model | 30-88, 58-60, 91-243, 141-229, 141-222, 144-149, 155-158, 159-168, 183-184, 184-207, 187-192, 194-207, 210-216, 212-216, 214 |
| src/modssc/views/types.py (35) |  |  |
