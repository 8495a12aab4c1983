import json
mods=["Verif.NN.PropsSymmetry"]
props=[["C80","Renumbering hidden units changes nothing","If two dense networks differ only in the order of the units of their hidden layers (columns of a layer's weights and the matching rows of the next layer's weights permuted alike), then trained on the same batches they still differ only in that order, and give the same outputs for every input. Consequently two units of a hidden layer that receive equal weights and pass on equal weights still do so after any training.","all dense networks of any depth and widths, all activations, learning rates and regularisations, all permutations of every hidden layer, all sequences of batches, all inputs","a relation between two runs of any length and all permutations",["src/layer/layer.cpp:forwardprop,backprop,update","src/neuralnet.cpp:forwardprop,backprop,update"]]]
notes={"C80":["proved","Over the reals, for dense hidden layers and any output whose cost derivative accepts matrices of equal size."]}
json.dump({"mods":mods,"props":props,"notes":notes,"design":"(C80) forward pass, backward pass and update commute with the renumbering (induction over the layers, sums reindexed by the permutation), then induction over the batches; twins are the fixed points of a transposition."},open('/tmp/gen/r80.json','w'))
